import Verif.Props.Csr
import Verif.Props.Coo
import Verif.Props.Other
import Verif.Props.CrCsr
/-
Concrete cases.  The modules under Cases apply each property theorem to concrete arguments, so that all of its hypotheses are met at
once.  The matrices used first.
-/
namespace Gsb

/-- 4 rows, 3 columns, not ordered, an empty row, two entries at one place, a negative and a zero value. -/
def exA : List (Ent Int) := [⟨3, 0, 2⟩, ⟨1, 2, 7⟩, ⟨1, 1, 5⟩, ⟨3, 2, 0⟩, ⟨1, 1, -3⟩, ⟨0, 2, 1⟩]

/-- 4 rows, 3 columns, no place twice. -/
def exB : List (Ent Int) := [⟨3, 0, 2⟩, ⟨1, 2, 7⟩, ⟨1, 1, 5⟩, ⟨0, 2, 1⟩]

/-- The entries of `exA` as elements of a Coo3, with stale block numbers. -/
def exE : List (Element Int) := exA.map fun e => ⟨e.row, e.col, e.val, 9⟩

def exX : Nat → Int := fun j => 3 * j - 1
def exY : Nat → Int := fun i => 100 - i

/-! ### CSR -/

example := C01_csr_spmv (2 ^ 32) 4 3 exA (by decide) (by decide) (by decide) (by decide) 5 6 (by decide) (by decide) exX exY
example := C01_csr_mulVec (2 ^ 32) 4 3 exA (by decide) (by decide) (by decide) (by decide) exX exY
example := C02_csr2_spmv (2 ^ 32) 4 3 exA (by decide) (by decide) (by decide) 5 6 (by decide) (by decide) exX exY
example := C03_blockcsr_spmv (2 ^ 32) 256 4 3 [(⟨0, 2, 1⟩ : Ent Int), ⟨1, 2, 7⟩, ⟨1, 1, 5⟩, ⟨3, 0, 2⟩] (by decide) (by decide) (by decide)
  (by decide) (by decide) 9 8 4 3 (by decide) (by decide) exX exY
example := C03_blockcsr_any (2 ^ 32) 2 4 3 [(⟨0, 2, 1⟩ : Ent Int), ⟨1, 2, 7⟩, ⟨1, 1, 5⟩, ⟨3, 0, 2⟩] (by decide) (by decide)
  (by decide) (by decide) 9 8 4 3 (by decide) (by decide) exX exY
example := C03_blockcsr_truncation (2 ^ 32) 256 (by decide) (5 : Int) exX exY

/-! ### COO -/

example := C04_coo_array_spmv 4 3 exA (by decide) exX exY
example := C04_coo_spmv (2 ^ 32) 256 4 3 exA (by decide) (by decide) exX exY
example := C04_coo_sum (2 ^ 32) 256 4 3 exA (by decide) (by decide) exX exY
example := C04_coo_exact16 (2 ^ 32) 4 3 (by decide) exA (by decide) (by decide) exX exY
example := C04_blockcoo2_spmv (2 ^ 32) 256 4 3 exA (by decide) (by decide) exX exY
example := C04_blockcoo2_sum (2 ^ 32) 256 4 3 exA (by decide) (by decide) exX exY
example := C04_blockcoo_rejects (2 ^ 32) 256 (by decide) [(⟨3, 256, 1⟩ : Ent Int), ⟨0, 0, 2⟩] (by decide)
example := C25_unique totalPre_rowMajor (isStableSort_mergeSort totalPre_rowMajor exA) (isStableSort_mergeSort totalPre_rowMajor exA)
example := C26_bits (2 ^ 32) 40000 3 (by decide) (by decide) (by decide)
example := C26_narrow 8 40000 300 (by decide) (by decide) (by decide)
example := C26_injective (2 ^ 32) 40000 3 40000 3 (by decide) (by decide) (by decide) (by decide) (by decide) rfl
example := C26_monotone (2 ^ 32) 40000 3 50000 7 (by decide) (by decide) (by decide) (by decide) (by decide)

/-! ### Dense, CSWR -/

example := C05_dense_storage (2 ^ 32) 4 3 exA (by decide) (by decide) (by decide)
example := C05_dense_spmv (2 ^ 32) 4 3 exA (by decide) (by decide) exX exY
example := C05_dense_distinct (2 ^ 32) 4 3 exB (by decide) (by decide) (by decide) exX exY
example := C05_dense_duplicates (2 ^ 32) (by decide) (3 : Int) 5 exX exY
example := C05_dense_overflow (2 ^ 16) (by decide) (3 : Int)
example := C07_cswr_spmv (2 ^ 32) 256 4 3 2 exA (by decide) (by decide) (by decide) (by decide) (by decide) exX exY
example := C07_cswr_any (2 ^ 32) 2 4 3 3 exA (by decide) (by decide) (by decide) (by decide) exX exY
example := C07_cswr_any_sum (2 ^ 32) 2 4 3 3 exA (by decide) (by decide) (by decide) (by decide) exX exY
example := C07_cswr_truncation (2 ^ 32) 256 300 (by decide) (by decide) (by decide) (3 : Int) exX exY

/-! ### CRCSR -/

example := C06_crcsr_zeroed (2 ^ 32) 4 3 exA (by decide) (by decide) (by decide) exX exY
example := C06_crcsr_memory (2 ^ 32) 3 (fun k => k % 2) (fun k => Nat.lt_trans (Nat.mod_lt k (by decide)) (by decide)) exA (by decide)
  (by decide) (by decide)
example := C06_crcsr_wrapper (2 ^ 32) (fun k => k % 2) (fun k => Nat.lt_trans (Nat.mod_lt k (by decide)) (by decide)) exA (by decide)
  (by decide)
example := C06_crcsr_silently_wrong (2 ^ 32) 4 3 1 1 [(⟨1, 2, 7⟩ : Ent Int), ⟨1, 1, 5⟩] (by decide) (by decide) (by decide) (by decide)
  (by decide) (by decide) (fun k => if k = 0 then 1 else 2 ^ 32 - 1) (fun k => by split <;> decide) rfl rfl exX exY

end Gsb
