import Verif.Cases.LateStart
import Verif.Props.LateSchedule
/-
Concrete cases for the schedules part of C88: offsets that start at 1.
-/
namespace Gsb

example : ∃ A es', cooToCsbr (2 ^ 32) 8 exLow 4 3 [1, 2, 4] 2 [0, 2, 3] 2 = .ok (A, es') ∧
    EverySchedule (fun Y => A.spmvP (2 ^ 32) (Buf.full 3 exX) Y) 4 exY (spmvExact (ents exLow) exX exY) := by
  obtain ⟨A, es', h⟩ := exLow_csbr
  exact ⟨A, es', h, C88_csbr_schedules (2 ^ 32) 8 4 3 exLow _ _ _ _ exLate exCols (by decide) (by decide) (by decide) (by decide) (by decide)
    A es' h 3 (Nat.le_refl _) exX exY⟩

example : ∃ A es', cooToCsbr2 (2 ^ 32) exLow 4 3 [1, 2, 4] 2 [0, 2, 3] 2 = .ok (A, es') ∧
    EverySchedule (fun Y => A.spmvP (2 ^ 32) (Buf.full 3 exX) Y) 4 exY (spmvExact (ents exLow) exX exY) := by
  obtain ⟨⟨⟨A, es'⟩, h⟩, -⟩ := exLow_accepted
  exact ⟨A, es', h, C88_csbr2_schedules (2 ^ 32) 4 3 exLow _ _ _ _ exLate exCols (by decide) (by decide) (by decide) (by decide)
    A es' h 3 (Nat.le_refl _) exX exY⟩

end Gsb
