import Verif.Cases.AnyPartition
import Verif.Props.LateStart
/-
Concrete cases for the product part of C88: offsets that start at 1.
-/
namespace Gsb

theorem exLate : Offsets [1, 2, 4] 2 4 := ⟨rfl, rfl, by decide⟩
theorem exCols : Offsets [0, 2, 3] 2 3 := ⟨rfl, rfl, by decide⟩

theorem exLow_csbr : ∃ A es', cooToCsbr (2 ^ 32) 8 exLow 4 3 [1, 2, 4] 2 [0, 2, 3] 2 = .ok (A, es') := by
  obtain ⟨r, h⟩ : ∃ r, cooToCsbr (2 ^ 32) 8 exLow 4 3 [1, 2, 4] 2 [0, 2, 3] 2 = .ok r := by
    unfold cooToCsbr
    simp only [sortElementsBlocks, pssSort_ins totalPre_blocks]
    exact ok_of_isOk (by krfl)
  exact ⟨r.1, r.2, h⟩

example : ∃ A es', cooToCsbr (2 ^ 32) 8 exLow 4 3 [1, 2, 4] 2 [0, 2, 3] 2 = .ok (A, es') ∧
    A.spmv (2 ^ 32) (Buf.full 3 exX) (Buf.full 4 exY) = .ok (Buf.full 4 (spmvExact (ents exLow) exX exY)) := by
  obtain ⟨A, es', h⟩ := exLow_csbr
  exact ⟨A, es', h, C88_csbr_product (2 ^ 32) 8 4 3 exLow _ _ _ _ exLate exCols (by decide) (by decide) (by decide) (by decide) (by decide)
    A es' h 3 4 (Nat.le_refl _) (Nat.le_refl _) exX exY⟩

example : ∃ A es', cooToCsbr2 (2 ^ 32) exLow 4 3 [1, 2, 4] 2 [0, 2, 3] 2 = .ok (A, es') ∧
    A.spmv (2 ^ 32) (Buf.full 3 exX) (Buf.full 4 exY) = .ok (Buf.full 4 (spmvExact (ents exLow) exX exY)) := by
  obtain ⟨⟨⟨A, es'⟩, h⟩, -⟩ := exLow_accepted
  exact ⟨A, es', h, C88_csbr2_product (2 ^ 32) 4 3 exLow _ _ _ _ exLate exCols (by decide) (by decide) (by decide) (by decide)
    A es' h 3 4 (Nat.le_refl _) (Nat.le_refl _) exX exY⟩

end Gsb
