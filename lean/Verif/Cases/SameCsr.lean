import Verif.Cases.Outside
import Verif.Cases.AnyPartition
import Verif.Props.SameCsr
/-
Concrete cases for C90 and for the largest row number in C85.
-/
namespace Gsb

/-- A column number outside the vector, in row 1. -/
def exBadCsr : Csr Int := ⟨Buf.ofList [5, 3, 7], Buf.ofList [0, 9, 1], Buf.ofList [0, 1, 3], 2, 2⟩
/-- Row pointers that decrease: the second row has no entries, the third the second and the third entry. -/
def exOddCsr : Csr Int := ⟨Buf.ofList [5, 3, 7], Buf.ofList [0, 1, 1], Buf.ofList [0, 2, 1, 3], 3, 2⟩

example := C90_product exBadCsr (Buf.full 2 exX) 2 (by decide) exY
example := C90_product exOddCsr (Buf.full 2 exX) 4 (by decide) exY
-- the one fails, in the same way; the other gives the same numbers
example : exBadCsr.interleaved.spmv (Buf.full 2 exX) (Buf.full 2 exY) = .error .oob ∧
    exBadCsr.spmv (Buf.full 2 exX) 0 (Buf.full 2 exY) 0 = .error .oob := ⟨rfl, rfl⟩
example : ∃ y', exOddCsr.interleaved.spmv (Buf.full 2 exX) (Buf.full 4 exY) = .ok y' ∧
    exOddCsr.spmv (Buf.full 2 exX) 0 (Buf.full 4 exY) 0 = .ok y' := by
  obtain ⟨r, h⟩ := ok_of_isOk (c := exOddCsr.spmv (Buf.full 2 exX) 0 (Buf.full 4 exY) 0) (by krfl)
  exact ⟨r, (C90_product exOddCsr (Buf.full 2 exX) 4 (by decide) exY).1.trans h, h⟩

example := C90_parallel_serial exOddCsr (Buf.full 2 exX) 0 (Buf.full 4 exY) 0 (by decide)
-- 5 x0 + 3 x1 to row 0, 3 x1 + 7 x1 to row 2
example : ∃ y', EverySchedule (fun Y => exOddCsr.spmvP (Buf.ofList [1, 10]) 0 Y 0) 3 (fun _ => 0) y' ∧ y' 0 = 35 ∧ y' 1 = 0 ∧ y' 2 = 100 := by
  obtain ⟨r, hr⟩ := ok_of_isOk (c := exOddCsr.spmvSerial (Buf.ofList [1, 10]) 0 (Buf.full 3 fun _ => 0) 0) (by krfl)
  obtain ⟨y', e, h, -⟩ := C90_schedules exOddCsr (Buf.ofList [1, 10]) (fun _ => 0) (by decide) r hr
  have v : ∀ i w, exOddCsr.spmvSerial (Buf.ofList [1, 10]) 0 (Buf.full 3 fun _ => 0) 0 >>= (fun b => b.get i) = .ok w → i < 3 → y' i = w := by
    intro i w hw hi
    rw [hr, ok_bind, e] at hw
    have := hw.symm.trans (Buf.get_full hi)
    cases this
    rfl
  exact ⟨y', h, v 0 35 (by krfl) (by decide), v 1 0 (by krfl) (by decide), v 2 100 (by krfl) (by decide)⟩

example := C90_convert (2 ^ 32) 4 3 exE (by decide) false
-- sorted or not as announced, inside the matrix or not
example := C90_convert (2 ^ 32) 4 3 exBelow (by decide) true

example := C85_csr2_last_row (2 ^ 32) 2 2 exZeroRow (by decide) (by decide) (by decide) (by decide) exX exY
-- with a width of 2, CSWR notices the same entries
example (y' : Buf Int) : (do let r ← cooToCswr (2 ^ 32) (2 ^ 8) exZeroRow 2 2 2
                             r.1.spmv (2 ^ 32) (Buf.full 2 exX) (Buf.full 2 exY)) ≠ .ok y' := fun h =>
  absurd (C85_cswr (2 ^ 32) (2 ^ 8) 2 2 2 exZeroRow (by decide) (by decide) (by decide) (by decide) (by decide) exX exY y' h).1
    (by decide)

end Gsb
