import Verif.Model.Cgbr
import Mathlib.Algebra.Order.Field.Rat
/-
The block type heuristics: include/matrix/cgbr.h:213-239 and include/matrix/blocks.h:86-121.
`sT`, `sI`, `sS` are `sizeof(T)`, `sizeof(IT)`, `sizeof(SIT)`.
-/
namespace Gsb

/-- The comparisons of `Coo_to_MatrixBlock` — cgbr.h:219-226 — in exact arithmetic:
`coo < 1.5 * csr`, then `nnz / (rows * columns) < 0.3`. -/
def chooseCgbr (sT sI sS : Nat) (rows columns nnz : Nat) : BlockChoice :=
  let coo := nnz * (2 * sS + sT)
  let csr := rows * sI + nnz * (sS + sT)
  if 2 * coo < 3 * csr then .coo
  else if 10 * nnz < 3 * (rows * columns) then .csr
  else .dense

/-- The same comparisons with every float operation followed by the rounding `fl`: `float(nnz) * k`,
`float(rows) * k + nnz * k'` (the second product is in `size_t` and converted), `1.5f * csr`,
`nnz / (float(rows) * float(columns))`, and `0.3f` as `fl 0.3`. -/
def chooseCgbrFl (fl : ℚ → ℚ) (sT sI sS : Nat) (rows columns nnz : Nat) : BlockChoice :=
  let coo := fl (fl nnz * ((2 * sS + sT : Nat) : ℚ))
  let csr := fl (fl (fl rows * (sI : ℚ)) + fl ((nnz * (sS + sT) : Nat) : ℚ))
  let ratio := fl (fl nnz / fl (fl rows * fl columns))
  if coo < fl (3 / 2 * csr) then .coo
  else if ratio < fl (3 / 10) then .csr
  else .dense

/-- The comparisons of `BlockFactoryDefault::create` — blocks.h:94-107 — in exact arithmetic:
`coo < csr`, then `csr < dense`, then `nnz / (rows * columns) < 0.05`, the last product in the index
type. -/
def chooseFactory (M sT sI sS : Nat) (rows columns nnz : Nat) : FactoryChoice :=
  let coo := nnz * (2 * sS + sT)
  let csr := rows * sI + nnz * (sS + sT)
  let dense := rows * columns * sT
  if coo < csr then .coo
  else if csr < dense then
    if 20 * nnz < mulM M rows columns then .csr else .csrPar
  else .dense

end Gsb
