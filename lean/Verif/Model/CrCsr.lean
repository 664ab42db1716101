import Verif.Model.Csr
/-
Model of the compressed-row CSR format: include/matrix/crcsr.h, include/spmv/omp/crcsr.h.
(`spmv_serial` in include/spmv/crcsr.h:6-26 has the same body without the OpenMP pragma.)
-/
namespace Gsb
variable {ε T : Type} [NZ ε T]

/-- `CompRowCsr<T,IT>` — crcsr.h:14-26. -/
structure CrCsr (T : Type) where
  val : Buf T
  colInd : Buf Nat
  rowPtr : Buf Nat
  nnzRows : Buf Nat
  nnzRowsNum : Nat

/-- `count_nnz_rows` — include/utils.h:357-372. -/
def countNnzRows (M : Nat) (es : List ε) : C Nat := do
  let e0 ← rd es 0
  let s ← forLoop 0 es.length (1, (NZ.toEnt e0).row) fun i s => do
    let e ← rd es i
    if (NZ.toEnt e).row ≠ s.2 then .ok (addM M s.1 1, (NZ.toEnt e).row) else .ok s
  .ok s.1

/-- State of the filling loop of `Coo_to_CrCsr`. -/
structure CrFill (T : Type) where
  ci : Buf Nat
  v : Buf T
  nr : Buf Nat
  rp : Buf Nat
  cur : Nat

/-- One iteration of the filling loop — crcsr.h:49-60. -/
def crFillStep (M : Nat) (es : List ε) (i : Nat) (s : CrFill T) : C (CrFill T) := do
  let e ← rd es i
  let ci ← s.ci.put i (NZ.toEnt e).col
  let v ← s.v.put i (NZ.toEnt e).val
  let r ← s.nr.get s.cur
  let (cur, nr) ← (if r ≠ (NZ.toEnt e).row then do
      let nr ← s.nr.put (addM M s.cur 1) (NZ.toEnt e).row
      .ok (addM M s.cur 1, nr)
    else .ok (s.cur, s.nr))
  let rp ← incr M s.rp (addM M cur 1)
  .ok ⟨ci, v, nr, rp, cur⟩

/-- `Coo_to_CrCsr(A, nonzeros, nnz, nnzrows)` — crcsr.h:35-72, with the initial contents of the
row pointer array as a parameter: the code allocates it with `new IT[nnzrows + 1]` (crcsr.h:41). -/
def crcsrBuild (M : Nat) (rp0 : Buf Nat) (es : List ε) (nnzrows : Nat) : C (CrCsr T × List ε) := do
  let es' := sortTriplets es
  let e0 ← rd es' 0
  let nr ← (Buf.uninit nnzrows : Buf Nat).put 0 (NZ.toEnt e0).row
  let s ← forLoop 0 es'.length
    (⟨Buf.uninit es'.length, Buf.uninit es'.length, nr, rp0, 0⟩ : CrFill T) (crFillStep M es')
  cassert (s.cur == subM M nnzrows 1)
  let rp ← prefixSum M s.rp nnzrows
  let t ← rp.get nnzrows
  cassert (t == es'.length)
  .ok (⟨s.v, s.ci, rp, s.nr, nnzrows⟩, es')

/-- `Coo_to_CrCsr` as written: the row pointers are not initialised. -/
def cooToCrCsrN (M : Nat) (es : List ε) (nnzrows : Nat) : C (CrCsr T × List ε) :=
  crcsrBuild M (Buf.uninit (addM M nnzrows 1)) es nnzrows

/-- `Coo_to_CrCsr(A, nonzeros, nnz)` — crcsr.h:80-85: counts the rows *before* sorting.  `mem n` is
what the memory handed out by `new IT[n + 1]` holds. -/
def cooToCrCsrOn (M : Nat) (mem : Nat → Buf Nat) (es : List ε) : C (CrCsr T × List ε) := do
  let n ← countNnzRows M es
  crcsrBuild M (mem n) es n

/-- The same as the language defines it: fresh memory is indeterminate. -/
def cooToCrCsr (M : Nat) (es : List ε) : C (CrCsr T × List ε) :=
  cooToCrCsrOn M (fun n => Buf.uninit (addM M n 1)) es

/-- One iteration of `spmv(CompRowCsr)` — include/spmv/omp/crcsr.h:13-25. -/
def CrCsr.spmvRow [Add T] [Mul T] (A : CrCsr T) (x : Buf T) (i : Nat) (y : Buf T) : C (Buf T) := do
  let rowStart ← A.rowPtr.get i
  let rowEnd ← A.rowPtr.get (i + 1)
  let ri ← A.nnzRows.get i
  let t ← y.get ri
  let t ← forLoop rowStart rowEnd t fun k t => do
    let v ← A.val.get k
    let c ← A.colInd.get k
    let xc ← x.get c
    .ok (t + v * xc)
  y.put ri t

/-- `spmv(CompRowCsr)` — include/spmv/omp/crcsr.h:6-26, iterations run in order; `spmv_serial` —
include/spmv/crcsr.h:6-26. -/
def CrCsr.spmv [Add T] [Mul T] (A : CrCsr T) (x y : Buf T) : C (Buf T) :=
  forLoop 0 A.nnzRowsNum y (CrCsr.spmvRow A x)

end Gsb
