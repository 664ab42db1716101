import Verif.Cases.Blocks
import Verif.Props.AnyPartition
import Verif.Props.WorkersFloat
/-
Concrete cases for C88.
-/
namespace Gsb

example : Checked [0, 1, 4] 2 4 [0, 2, 3] 2 3 (ents exE) := by
  obtain ⟨A, es', h, -⟩ := C08_csbr_spmv (2 ^ 32) 8 4 3 exE _ _ _ _ exR exC (by decide) (by decide) (by decide) (by decide) (by decide)
    (by decide) (by decide) (by decide) (by decide) 3 4 (Nat.le_refl _) (Nat.le_refl _) exX exY
  exact C88_csbr (2 ^ 32) 8 4 3 exE _ _ _ _ (by decide) (by decide) (by decide) (by decide) _ h
example : Checked [0, 1, 4] 2 4 [0, 2, 3] 2 3 (ents exD) := by
  obtain ⟨A, es', h, -⟩ := C11_cgbr_spmv (2 ^ 32) (2 ^ 16 - 1) 8 4 3 exChoose (fun _ _ _ => true) exD _ _ _ _ exR exC exR_small exC_small
    (fun _ _ _ h1 h2 _ _ => small_square h1 h2) (.inr (by decide)) (by decide) (by decide) (by decide) (by decide) (by decide) (by decide)
    (by decide) (by decide) (by decide)
  exact C88_cgbr (2 ^ 32) (2 ^ 16 - 1) 8 4 3 exChoose (fun _ _ _ => true) exD _ _ _ _ (by decide) (by decide) (by decide) (by decide) (by decide) _ h

/-- Three entries, none in row 0. -/
def exLow : List (Element Int) := [⟨3, 0, 2, 0⟩, ⟨1, 2, 7, 0⟩, ⟨1, 1, 5, 0⟩]

theorem ok_of_isOk {α : Type} {c : C α} (h : c.isOk = true) : ∃ r, c = .ok r := by
  cases c with
  | error e => cases h
  | ok r => exact ⟨r, rfl⟩

/-- Offsets that start at 1, and offsets that decrease, are accepted if the entries are in blocks. -/
theorem exLow_accepted : (∃ r, cooToCsbr2 (2 ^ 32) exLow 4 3 [1, 2, 4] 2 [0, 2, 3] 2 = .ok r) ∧
    (∃ r, cooToCsbr2 (2 ^ 32) exLow 4 3 [0, 3, 2, 4] 3 [0, 2, 3] 2 = .ok r) := by
  unfold cooToCsbr2
  simp only [sortElementsBlocks, pssSort_ins totalPre_blocks]
  exact ⟨ok_of_isOk (by krfl), ok_of_isOk (by krfl)⟩

example : Checked [1, 2, 4] 2 4 [0, 2, 3] 2 3 (ents exLow) ∧ Checked [0, 3, 2, 4] 3 4 [0, 2, 3] 2 3 (ents exLow) := by
  obtain ⟨⟨r1, h1⟩, ⟨r2, h2⟩⟩ := exLow_accepted
  exact ⟨C88_csbr2 (2 ^ 32) 4 3 exLow _ _ _ _ (by decide) (by decide) (by decide) (by decide) _ h1,
    C88_csbr2 (2 ^ 32) 4 3 exLow _ _ _ _ (by decide) (by decide) (by decide) (by decide) _ h2⟩

-- an entry before the first offset, more blocks than rows: no conversion
example (r) : cooToCsbr2 (2 ^ 32) exE 4 3 [1, 2, 4] 2 [0, 2, 3] 2 ≠ .ok r := fun h => by
  obtain ⟨⟨i, lo, hi, h1, -, h2, -⟩, -⟩ := (C88_csbr2 (2 ^ 32) 4 3 exE _ _ _ _ (by decide) (by decide) (by decide) (by decide) r h).inBlock
    ⟨0, 2, 1⟩ (by decide)
  have : ∀ a ∈ [1, 2, 4], ¬ a ≤ 0 := by decide
  exact this lo (List.mem_of_getElem? h1) h2
example (r) : cgbr2Create (2 ^ 32) 8 (factoryDefault (2 ^ 32) (2 ^ 16) fun _ _ _ => .csr) exD 4 3 [0, 1, 1, 2, 3, 4] 5 [0, 2, 3] 2 ≠ .ok r :=
  fun h => absurd (C88_cgbr2 (2 ^ 32) 8 4 3 _ (keepsLength_factory _ _ _) exD _ _ _ _ (by decide) (by decide) (by decide) (by decide)
    (by decide) r h).blockrows_le (by decide)

end Gsb
