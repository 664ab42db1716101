import Verif.Cases.Blocks
import Verif.Props.WorkersFloat
/-
Concrete cases for C84.
-/
namespace Gsb

example := C84_csbr (2 ^ 32) 1 8 (by decide) (by decide) exE 4 3 [0, 1, 4] 2 [0, 2, 3] 2 (Buf.full 3 exX) (Buf.full 4 exY)

/-- Both a balanced matrix and one that is not. -/
example (heavy : Bool) : ∃ A es', cooToCgbr (2 ^ 32) (2 ^ 16 - 1) 8 exChoose (fun _ _ _ => heavy) exD 4 3 [0, 1, 4] 2 [0, 2, 3] 2 = .ok (A, es') ∧
    ∃ A', cooToCgbr (2 ^ 32) (2 ^ 16 - 1) 3 exChoose (fun _ _ _ => heavy) exD 4 3 [0, 1, 4] 2 [0, 2, 3] 2 = .ok (A', es') ∧ A'.base = A.base := by
  obtain ⟨A, es', h, -⟩ := C11_cgbr_spmv (2 ^ 32) (2 ^ 16 - 1) 8 4 3 exChoose (fun _ _ _ => heavy) exD _ _ _ _ exR exC exR_small exC_small
    (fun _ _ _ h1 h2 _ _ => small_square h1 h2) (.inr (by decide)) (by decide) (by decide) (by decide) (by decide) (by decide) (by decide)
    (by decide) (by decide) (by decide)
  obtain ⟨A', h1, h2, -⟩ := C84_cgbr (2 ^ 32) 8 3 (by decide) (by decide) exD 4 3 [0, 1, 4] 2 [0, 2, 3] 2 (2 ^ 16 - 1) exChoose
    (fun _ _ _ => heavy) A es' h
  exact ⟨A, es', h, A', h1, h2⟩

example : ∃ A es' A', cgbr2Create (2 ^ 32) 3 (factoryDefault (2 ^ 32) (2 ^ 16) (chooseFactory (2 ^ 32) 4 4 2)) exD 4 3 [0, 1, 4] 2 [0, 2, 3] 2 =
    .ok (A', es') ∧ A'.base = Cgbr2.base A := by
  obtain ⟨A, es', h, -⟩ := C12_cgbr2_spmv (2 ^ 32) (2 ^ 16 - 1) 8 4 3 _ True exD _ _ _ _ exR exC exR_small exC_small
    (C12_default_factory_right (T := Int) (2 ^ 32) (2 ^ 16) (2 ^ 16 - 1) (by decide) (chooseFactory (2 ^ 32) 4 4 2) True
      (fun _ _ _ h1 h2 _ _ => ⟨small_square h1 h2, trivial⟩)) (fun _ => by decide)
    (by decide) (by decide) (by decide) (by decide) (by decide) (by decide) (by decide) (by decide) (by decide)
  obtain ⟨A', h1, h2, -⟩ := C84_cgbr2 (2 ^ 32) 8 3 (by decide) (by decide) exD 4 3 [0, 1, 4] 2 [0, 2, 3] 2 _ A es' h
  exact ⟨A, es', A', h1, h2⟩

example := C84_unbalanced (fun n => (n : Int)) exX exY

end Gsb
