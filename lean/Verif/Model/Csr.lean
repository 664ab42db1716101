import Verif.Model.Types
/-
Models of the CSR formats and kernels:
include/matrix/csr.1.h, csr.2.h, block_csr.h, blocks.h (BlockCsrSerial/BlockCsrParallel),
include/generic/csr.h, include/spmv/csr.h, include/spmv/omp/csr.h.
-/
namespace Gsb
variable {ε T : Type} [NZ ε T]

/-- The accumulation `y[k] += v * x[c]` where all operands but `x`, `y` are at hand. -/
def macc [Add T] [Mul T] (y : Buf T) (k : Nat) (v : T) (x : Buf T) (c : Nat) : C (Buf T) := do
  let xc ← x.get c
  let yk ← y.get k
  y.put k (yk + v * xc)

/-- "row pointers as the cumulative sum of row non-zeros":
`for (i=0; i<n; i++) p[i+1] = p[i+1] + p[i];` — include/matrix/csr.1.h:97-100,
csr.2.h:70-74, block_csr.h:58-62, blocks.h:39-41, cswr.h:79-81, csbr.h:292-295,
csbr.2.h, csbr.3.h:123-125, cgbr.h, cgbr.2.h:168-170.  Additions are modulo `M`. -/
def prefixSum (M : Nat) (p : Buf Nat) (n : Nat) : C (Buf Nat) :=
  forLoop 0 n p fun i p => do
    let a ← p.get (i + 1)
    let b ← p.get i
    p.put (i + 1) (addM M a b)

/-- `p[k]++` on an array of unsigned integers. -/
def incr (M : Nat) (p : Buf Nat) (k : Nat) : C (Buf Nat) := do
  let c ← p.get k
  p.put k (addM M c 1)

/-- The three arrays of a CSR matrix and its dimensions: `Csr` (csr.1.h:13-21), `BlockCsr`
(block_csr.h:8-14), `BlockCsrSerial` (blocks.h:17-23; its `M` is `rows`). -/
structure Csr (T : Type) where
  val : Buf T
  colInd : Buf Nat
  rowPtr : Buf Nat
  rows : Nat
  columns : Nat

/-- `Csr::nonzeros`, `BlockCsr::nonzeros` — csr.1.h:23, block_csr.h:18. -/
def Csr.nonzeros (A : Csr T) : C Nat := A.rowPtr.get A.rows

/-- One iteration of the copying loop — csr.1.h:91-95, block_csr.h:51-56, blocks.h:33-37.
`S` is the number of values of the column index type (`S = M` for `Csr`): the assignment
`col_ind[i] = nonzeros[i].col` truncates modulo `S`. -/
def csrFillStep (M S : Nat) (es : List ε) (i : Nat) (s : Buf Nat × Buf T × Buf Nat) :
    C (Buf Nat × Buf T × Buf Nat) := do
  let e ← rd es i
  let ci ← s.1.put i ((NZ.toEnt e).col % S)
  let v ← s.2.1.put i (NZ.toEnt e).val
  let rp ← incr M s.2.2 (addM M (NZ.toEnt e).row 1)
  .ok (ci, v, rp)

/-- The common body of the CSR constructors after the optional sort — csr.1.h:82-103
(`allocate = true`), block_csr.h:46-65, blocks.h:25-44.  The array length stands for `nnz`. -/
def csrBuild (M S : Nat) (es : List ε) (rows columns : Nat) : C (Csr T) := do
  let s ← forLoop 0 es.length
    ((Buf.uninit es.length : Buf Nat), (Buf.uninit es.length : Buf T), Buf.filled (addM M rows 1) 0)
    (csrFillStep M S es)
  let rp ← prefixSum M s.2.2 rows
  let t ← rp.get rows
  cassert (t == es.length)
  .ok ⟨s.2.1, s.1, rp, rows, columns⟩

/-- `Coo_to_Csr(Csr*, NONZERO*, rows, columns, nnz, isSorted, true)` — csr.1.h:73-104.
Also returns the input array, which the call sorts in place. -/
def cooToCsr (M : Nat) (es : List ε) (rows columns : Nat) (isSorted : Bool := false) :
    C (Csr T × List ε) := do
  let es' := if isSorted then es else sortTriplets es
  let A ← csrBuild M M es' rows columns
  .ok (A, es')

/-- `Coo_to_Csr(BlockCsr*, NONZERO*, rows, columns, nnz, isSorted)` — block_csr.h:37-66; the
overload at 68-72 passes `isSorted = true`. -/
def cooToBlockCsr (M S : Nat) (es : List ε) (rows columns : Nat) (isSorted : Bool := true) :
    C (Csr T × List ε) := do
  let es' := if isSorted then es else sortTriplets es
  let A ← csrBuild M S es' rows columns
  .ok (A, es')

/-- The body of the inner loop `y[i] += val[j] * x[col_ind[j]]` — spmv/csr.h:20-22,
spmv/omp/csr.h:15-18.  `base` is where the matrix's own arrays start in the arrays it points into
(0 unless the arrays are shared, as in Csbr); `xo`, `yo` are the offsets of the pointers
`x + xo`, `y + yo` passed by the caller. -/
def csrInner [Add T] [Mul T] (ci : Buf Nat) (v : Buf T) (base : Nat) (x : Buf T) (xo : Nat)
    (k : Nat) (j : Nat) (y : Buf T) : C (Buf T) := do
  let vj ← v.get (base + j)
  let c ← ci.get (base + j)
  macc y k vj x (xo + c)

/-- `spmv_csr_serial` — include/spmv/csr.h:4-24. -/
def spmvCsrSerial [Add T] [Mul T] (rp : Buf Nat) (ci : Buf Nat) (v : Buf T) (base rows : Nat)
    (x : Buf T) (xo : Nat) (y : Buf T) (yo : Nat) : C (Buf T) := do
  let r0 ← rp.get 0
  let s ← forLoop 0 rows (r0, y) fun i s => do
    let rowEnd ← rp.get (i + 1)
    let y ← forLoop s.1 rowEnd s.2 (csrInner ci v base x xo (yo + i))
    .ok (rowEnd, y)
  .ok s.2

/-- One iteration of the OpenMP loop of `spmv_csr` — include/spmv/omp/csr.h:11-19. -/
def spmvCsrRow [Add T] [Mul T] (rp : Buf Nat) (ci : Buf Nat) (v : Buf T) (base : Nat)
    (x : Buf T) (xo : Nat) (yo : Nat) (i : Nat) (y : Buf T) : C (Buf T) := do
  let rowStart ← rp.get i
  let rowEnd ← rp.get (i + 1)
  forLoop rowStart rowEnd y (csrInner ci v base x xo (yo + i))

/-- `spmv_csr` — include/spmv/omp/csr.h:6-20, iterations run in order.  Other schedules:
`Verif.Props.Schedule`. -/
def spmvCsr [Add T] [Mul T] (rp : Buf Nat) (ci : Buf Nat) (v : Buf T) (base rows : Nat)
    (x : Buf T) (xo : Nat) (y : Buf T) (yo : Nat) : C (Buf T) :=
  forLoop 0 rows y (spmvCsrRow rp ci v base x xo yo)

/-- `Csr::spmv` — csr.1.h:26-29, `BlockCsr::spmv` — block_csr.h:23-26,
`BlockCsrParallel::spmv` — blocks.h:69-72. -/
def Csr.spmv [Add T] [Mul T] (A : Csr T) (x : Buf T) (xo : Nat) (y : Buf T) (yo : Nat) : C (Buf T) :=
  spmvCsr A.rowPtr A.colInd A.val 0 A.rows x xo y yo

/-- `Csr::spmv_serial` — csr.1.h:31-34, `BlockCsr::spmv_serial` — block_csr.h:28-31,
`BlockCsrSerial::spmv` — blocks.h:53-56. -/
def Csr.spmvSerial [Add T] [Mul T] (A : Csr T) (x : Buf T) (xo : Nat) (y : Buf T) (yo : Nat) :
    C (Buf T) :=
  spmvCsrSerial A.rowPtr A.colInd A.val 0 A.rows x xo y yo

/-- `Csr2<T,IT>` — include/matrix/csr.2.h:17-36.  The array of
`NonZero` pairs (typedefs.h:6-11) is modelled as the two arrays of
its fields `data[i].index`, `data[i].val` (each field is written and read separately). -/
structure Csr2 (T : Type) where
  dataIndex : Buf Nat
  dataVal : Buf T
  rowPtr : Buf Nat
  rows : Nat
  columns : Nat

/-- `Csr2::nonzeros` — csr.2.h:24. -/
def Csr2.nonzeros (A : Csr2 T) : C Nat := A.rowPtr.get A.rows

/-- `Coo_to_Csr(Csr2*, …, isSorted, true)` — csr.2.h:45-78. -/
def cooToCsr2 (M : Nat) (es : List ε) (rows columns : Nat) (isSorted : Bool := false) :
    C (Csr2 T × List ε) := do
  let es' := if isSorted then es else sortTriplets es
  let s ← forLoop 0 es'.length
    ((Buf.uninit es'.length : Buf Nat), (Buf.uninit es'.length : Buf T), Buf.filled (addM M rows 1) 0)
    (fun i s => do
      let e ← rd es' i
      let di ← s.1.put i (NZ.toEnt e).col
      let dv ← s.2.1.put i (NZ.toEnt e).val
      let rp ← incr M s.2.2 (addM M (NZ.toEnt e).row 1)
      .ok (di, dv, rp))
  let rp ← prefixSum M s.2.2 rows
  let t ← rp.get rows
  cassert (t == es'.length)
  .ok (⟨s.1, s.2.1, rp, rows, columns⟩, es')

/-- The body of the inner loop `res += nonzeros[j].val * x[nonzeros[j].index]` —
spmv/csr.h:43-45, spmv/omp/csr.h:32-35. -/
def csr2Inner [Add T] [Mul T] (A : Csr2 T) (x : Buf T) (j : Nat) (res : T) : C T := do
  let vj ← A.dataVal.get j
  let c ← A.dataIndex.get j
  let xc ← x.get c
  .ok (res + vj * xc)

/-- `spmv_csr2_serial` — include/spmv/csr.h:26-48. -/
def Csr2.spmvSerial [Add T] [Mul T] (A : Csr2 T) (x y : Buf T) : C (Buf T) := do
  let r0 ← A.rowPtr.get 0
  let s ← forLoop 0 A.rows (r0, y) fun i s => do
    let rowEnd ← A.rowPtr.get (i + 1)
    let yi ← s.2.get i
    let res ← forLoop s.1 rowEnd yi (csr2Inner A x)
    let y ← s.2.put i res
    .ok (rowEnd, y)
  .ok s.2

/-- One iteration of `spmv_csr2` — include/spmv/omp/csr.h:27-37. -/
def Csr2.spmvRow [Add T] [Mul T] (A : Csr2 T) (x : Buf T) (i : Nat) (y : Buf T) : C (Buf T) := do
  let rowStart ← A.rowPtr.get i
  let rowEnd ← A.rowPtr.get (i + 1)
  let yi ← y.get i
  let res ← forLoop rowStart rowEnd yi (csr2Inner A x)
  y.put i res

/-- `spmv_csr2` — include/spmv/omp/csr.h:22-38, iterations run in order. -/
def Csr2.spmv [Add T] [Mul T] (A : Csr2 T) (x y : Buf T) : C (Buf T) :=
  forLoop 0 A.rows y (Csr2.spmvRow A x)

end Gsb
