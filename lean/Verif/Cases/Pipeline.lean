import Verif.Cases.Tools
import Verif.Props.Pipeline
/-
Concrete cases for the tools one after the other.
-/
namespace Gsb

open scoped UInt8.CommRing

theorem pairCodec_exact : pairCodec.Exact (fun _ => True) := ⟨by decide, fun _ => rfl, fun _ _ => rfl⟩

/-- The entries of `exF`, with values of two bytes. -/
def exWide : List (Ent (UInt8 × UInt8)) := [⟨3, 0, (2, 9)⟩, ⟨1, 2, (7, 9)⟩, ⟨1, 1, (5, 8)⟩, ⟨0, 2, (255, 0)⟩]

/-- Its files, with indices from one, a permutation `p` and block sizes `s`. -/
def exWideFiles : FS := fun n =>
  if n = "r" then some (packed (idx 4) [4, 2, 2, 1]) else if n = "c" then some (packed (idx 4) [1, 3, 2, 3])
  else if n = "v" then some (packed pairCodec [(2, 9), (7, 9), (5, 8), (255, 0)]) else if n = "p" then some (packed (idx 4) [2, 0, 3, 1])
  else if n = "s" then some (packed (idx 4) [3, 1]) else none

theorem exOneBased : OneBased pairCodec exWideFiles "r" "c" "v" exWide := ⟨rfl, rfl, rfl, by decide⟩

example := C78_import pairCodec_exact byteCodec_exact Prod.fst exDisk exWideFiles "r" "c" "v" exWide exOneBased (by decide) (by decide) (by decide)
  (by decide) (by decide) (by decide) (by decide) (by decide) (by decide) (by decide) ⟨rfl, by decide, by decide⟩ ⟨rfl, by decide, by decide⟩
  ⟨rfl, by decide, by decide⟩

example := C78_permute false exDisk exToolFiles "r" "c" "v" "p" exF [2, 0, 3, 1] exToolFiles3 rfl (by decide) (by decide) (by decide) (by decide)
  (by decide) (by decide) (.inl (by decide)) (by decide) (by decide) (by decide) ⟨rfl, by decide, by decide⟩ ⟨rfl, by decide, by decide⟩

theorem exIsPerm : IsPerm [3, 1].sum (fun i => [2, 0, 3, 1].getD i 0) := ⟨by decide, fun j k hj hk => (by decide : ∀ j, j < 4 → ∀ k, k < 4 → [2, 0, 3, 1].getD j 0 = [2, 0, 3, 1].getD k 0 → j = k) j hj k hk⟩

example := C78_prepare byteCodec_exact false 4 3 (exPrepare "a" (by decide)) (by decide) exIsPerm rfl

theorem exPrepareWide (fs2 : FS) (h1 : Files3 4 byteCodec fs2 ("r" ++ ".zero") ("c" ++ ".zero") ("v" ++ ".float") (narrowed Prod.fst exWide))
    (h2 : fs2 "p" = some (packed (idx 4) [2, 0, 3, 1])) (h3 : fs2 "s" = some (packed (idx 4) [3, 1])) :
    PrepareRun byteCodec (fun _ => "4") exDisk fs2 ("r" ++ ".zero") ("c" ++ ".zero") ("v" ++ ".float") "p" "s" "a" [2, 0, 3, 1] [3, 1] 2 4
      (narrowed Prod.fst exWide) exPermuted :=
  { files := h1, perm := h2, permFits := by decide, sizesFile := h3,
    sizesFit := ⟨by decide, by decide, by decide, by decide, by decide⟩, nonempty := by decide, bytes := by decide, words := by decide,
    indices := by decide,
    permuted := .cons ⟨rfl, rfl, rfl⟩ (.cons ⟨rfl, rfl, rfl⟩ (.cons ⟨rfl, rfl, rfl⟩ (.cons ⟨rfl, rfl, rfl⟩ .nil))),
    inside := by decide, slotSize := by decide +kernel, tmp := by decide, name := by decide,
    diskRows := ⟨rfl, by decide, by decide⟩, diskCols := ⟨rfl, by decide, by decide⟩,
    disk1 := ⟨rfl, by decide, by decide⟩, disk2 := ⟨rfl, by decide, by decide⟩, disk3 := ⟨rfl, by decide, by decide⟩,
    disk4 := ⟨rfl, by decide, by decide⟩ }

example := C78_end_to_end pairCodec_exact byteCodec_exact Prod.fst false 4 3 exOneBased (by decide) (by decide) (by decide)
  (by decide) (by decide) (by decide) (by decide) (by decide) (by decide) ⟨rfl, by decide, by decide⟩ ⟨rfl, by decide, by decide⟩
  ⟨rfl, by decide, by decide⟩ rfl rfl (by rintro f (rfl | rfl) <;> decide) exPrepareWide (by decide) (by decide) exIsPerm rfl

/-- The variables held the right numbers by chance. -/
example := (C78_block byteCodec_exact false 4 4 (exPrepare "a" (by decide)) (by decide) (by decide) (by decide) (by decide) (by decide)
  (by decide)).imp fun _ h => And.intro h.1 (h.2.1 ⟨rfl, rfl⟩)
/-- They did not. -/
example := (C78_block byteCodec_exact false 4 3 (exPrepare "a" (by decide)) (by decide) (by decide) (by decide) (by decide) (by decide)
  (by decide)).imp fun _ h => And.intro h.1 (h.2.2 (by decide))

end Gsb
