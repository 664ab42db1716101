import Verif.Model.Csr
/-
Models of the dense block formats: include/matrix/dense.h, include/spmv/dense.h,
include/spmv/omp/dense.h.
-/
namespace Gsb
variable {ε T : Type} [NZ ε T]

/-- `DenseSerial`, `DenseParallel`, `BlockDense` — dense.h:15-19, 51-53, 67-71. -/
structure Dense (T : Type) where
  val : Buf T
  rows : Nat
  columns : Nat

/-- The filling loop — dense.h:28-32 and 108-112:
`pos = row * columns + col; val[pos] = array[i].val`, in the index type. -/
def denseFill (M : Nat) (es : List ε) (columns : Nat) (val : Buf T) : C (Buf T) :=
  forLoop 0 es.length val fun i val => do
    let e ← rd es i
    val.put (addM M (mulM M (NZ.toEnt e).row columns) (NZ.toEnt e).col) (NZ.toEnt e).val

/-- Constructor `DenseSerial(array, rows, columns, nnz)` — dense.h:21-33; `DenseParallel`
(dense.h:54-56) calls it.  The array is value-initialised to `zero`. -/
def mkDense [Zero T] (M : Nat) (es : List ε) (rows columns : Nat) : C (Dense T) := do
  let v ← denseFill M es columns (Buf.filled (mulM M rows columns) 0)
  .ok ⟨v, rows, columns⟩

/-- `Coo_to_Dense` — dense.h:96-113, with `allocate` (dense.h:129-136).  The overflow check compares
the wrapped product with `rows` only. -/
def cooToDense [Zero T] (M : Nat) (es : List ε) (rows columns : Nat) : C (Dense T) := do
  let N := mulM M rows columns
  cassert (decide (rows ≤ N))
  let v ← denseFill M es columns (Buf.filled (mulM M rows columns) 0)
  .ok ⟨v, rows, columns⟩

/-- One row of the dense kernels: `temp = y[i]; for j: temp += val[i*N + j] * x[j]; y[i] = temp` —
spmv/dense.h:13-19, spmv/omp/dense.h:11-16. -/
def spmvDenseRow [Add T] [Mul T] (M : Nat) (val : Buf T) (columns : Nat) (x : Buf T) (xo yo : Nat)
    (i : Nat) (y : Buf T) : C (Buf T) := do
  let t ← y.get (yo + i)
  let t ← forLoop 0 columns t fun j t => do
    let v ← val.get (addM M (mulM M i columns) j)
    let xj ← x.get (xo + j)
    .ok (t + v * xj)
  y.put (yo + i) t

/-- `spmv_dense_serial` (spmv/dense.h:4-21) and `spmv_dense` (spmv/omp/dense.h:5-18): the same
loop; the OpenMP version's other schedules are in `Verif.Props.Schedule`. -/
def Dense.spmv [Add T] [Mul T] (M : Nat) (A : Dense T) (x : Buf T) (xo : Nat) (y : Buf T) (yo : Nat) :
    C (Buf T) :=
  forLoop 0 A.rows y (spmvDenseRow M A.val A.columns x xo yo)

end Gsb
