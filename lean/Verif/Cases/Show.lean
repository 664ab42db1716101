import Verif.Cases.Blocks
import Verif.Props.Show
/-
Concrete cases for what is printed, among them the numbers of the program visual itself.
-/
namespace Gsb

example := C79_show_nonzeros (T := Int) exE
example := C79_show_coo (T := Int) (2 ^ 32) (2 ^ 16) exE (by decide)
example := C79_show_csr (T := Int) (2 ^ 32) 4 3 exE (by decide) (by decide) (by decide) (by decide)
example := C79_info_csr (T := Int) (2 ^ 32) 4 3 exE (by decide) (by decide) (by decide)
example := C79_info_cswr (T := Int) (2 ^ 32) 256 4 3 3 exE (by decide) (by decide) (by decide) (by decide)
example := C79_info_csbr (2 ^ 32) 8 4 3 exE _ _ _ _ exR exC (by decide) (by decide) (by decide) (by decide) (by decide) (by decide)
  (by decide) (by decide) (by decide)
example := C79_info_csbr3 (2 ^ 32) 256 4 3 2 exE (by decide) (by decide) (by decide) (by decide) (by decide) (by decide) (by decide)
example := C79_info_cgbr (2 ^ 32) (2 ^ 16) (2 ^ 16 - 1) 8 4 3 exChoose (fun _ _ _ => true) exD _ _ _ _ exR exC (by decide) exR_small exC_small
  (fun _ _ _ h1 h2 _ _ => small_square h1 h2) (.inr (by decide)) (by decide) (by decide) (by decide) (by decide) (by decide) (by decide)
  (by decide) (by decide) (by decide)
example := C79_info_cgbr2 (2 ^ 32) (2 ^ 16) (2 ^ 16 - 1) 8 4 3 (chooseFactory (2 ^ 32) 4 4 2) True exD _ _ _ _ exR exC (by decide)
  exR_small exC_small (fun _ _ _ h1 h2 _ _ => ⟨small_square h1 h2, trivial⟩) (fun _ => by decide) (by decide) (by decide) (by decide) (by decide)
  (by decide) (by decide) (by decide) (by decide) (by decide)
example := C79_dump_csbr (2 ^ 32) 8 4 3 exE _ _ _ _ exR exC (by decide) (by decide) (by decide) (by decide) (by decide) (by decide)
  (by decide) (by decide) (by decide)
example := C79_dump_cgbr (2 ^ 32) (2 ^ 16) (2 ^ 16 - 1) 8 4 3 exChoose (fun _ _ _ => true) exD _ _ _ _ exR exC (by decide) exR_small exC_small
  (fun _ _ _ h1 h2 _ _ => small_square h1 h2) (.inr (by decide)) (by decide) (by decide) (by decide) (by decide) (by decide) (by decide)
  (by decide) (by decide) (by decide)

/-- A dump with chunks of 2, 1 and 3 blocks in the first block-row, and an empty first chunk in the second. -/
example : partitionDump (2 ^ 32) [[0, 2, 3, 6], [6, 6, 9]] 2 = .ok [(0, 3, [2, 1, 3]), (1, 2, [0, 3])] := by rfl

/-- The entries of visual.cpp:20-22, the values times ten. -/
def exVisual : List (Triplet Int) :=
  [⟨1, 1, 11⟩, ⟨1, 3, 12⟩, ⟨2, 2, 13⟩, ⟨3, 0, 14⟩, ⟨4, 4, 15⟩, ⟨2, 9, 16⟩, ⟨4, 0, 17⟩, ⟨5, 5, 18⟩, ⟨0, 6, 19⟩, ⟨4, 9, 20⟩, ⟨7, 2, 31⟩]

example := C79_visual (2 ^ 32) 4 8 10 (fun _ _ l => .ok l) (fun _ => 77) exVisual [0, 3, 4, 8] 3 [0, 2, 3, 7, 10] 4
  ⟨rfl, rfl, rfl, by decide⟩ ⟨rfl, rfl, rfl, by decide⟩ (by decide) (by decide) (by decide) (by decide) (by decide) (by decide) (by decide)
  10 (by decide) (fun _ => 1) (by decide) (by decide)

/-- The third line the program prints of its CSR matrix, `2 (2,1.3) (9,1.6)`. -/
example : (rowEntries exVisual 2).map (fun e => ShowTok.cell e.col e.val) = [.cell 2 13, .cell 9 16] := by decide

/-- Twenty-one entries are too many to print, twenty are not. -/
example : (showNonzeros (T := Int) ((List.range 21).map fun i => (⟨i, 0, 1⟩ : Ent Int))) = .ok [.tooLarge] := by rfl
example : (showNonzeros (T := Int) ((List.range 20).map fun i => (⟨i, 0, 1⟩ : Ent Int))) =
    .ok ((List.range 20).map (fun i => .entry i 0 1) ++ [.newline]) := by rfl

end Gsb
