import Verif.Par.Lang
import Verif.Model.Csr
import Verif.Model.Coo
import Verif.Model.Dense
import Verif.Model.CrCsr
import Verif.Model.Cswr
/-
The multi-threaded SpMV kernels as fork/join programs over shared memory (`Verif.Par.Lang`): every access to `y` is a
step of its own.  `y` is cell `yo`, `yo+1`, … of array `b`; `x` and the matrix are immutable.  The sequential models
of the same functions are in Model/Csr, Model/Coo, …
-/
namespace Gsb
variable {T : Type}

/-- `y[k] += v * x[c]`: reads `x[c]`, reads `y[k]`, writes `y[k]`. -/
def maccP [Add T] [Mul T] (b k : Nat) (v : T) (x : Buf T) (c : Nat) : Prog T :=
  Prog.read (x.get c) fun xc =>
  .load (b, k) fun yk =>
  .store (b, k) (some (yk + v * xc)) (.ret 0)

/-- `t = y[k]; for (j = lo; j < hi; j++) t = body(j, t); y[k] = t` — the shape of the rows of spmv/omp/csr.h:27-37,
spmv/omp/dense.h:11-17, spmv/omp/crcsr.h:13-25.  `t` is a local variable. -/
def accP (b k lo hi : Nat) (body : Nat → T → C T) : Prog T :=
  .load (b, k) fun t =>
  Prog.read (forLoop lo hi t body) fun t =>
  .store (b, k) (some t) (.ret 0)

/-- The inner loop body `y[i] += val[j] * x[col_ind[j]]` — spmv/csr.h:20-22, spmv/omp/csr.h:17. -/
def csrInnerP [Add T] [Mul T] (ci : Buf Nat) (v : Buf T) (base : Nat) (x : Buf T) (xo : Nat) (b k : Nat) (j : Nat) : Prog T :=
  Prog.read (v.get (base + j)) fun vj =>
  Prog.read (ci.get (base + j)) fun c =>
  maccP b k vj x (xo + c)

/-- One iteration of the OpenMP loop of `spmv_csr` — spmv/omp/csr.h:13-19. -/
def csrRowP [Add T] [Mul T] (rp ci : Buf Nat) (v : Buf T) (base : Nat) (x : Buf T) (xo : Nat) (b yo : Nat) (i : Nat) : Prog T :=
  Prog.read (rp.get i) fun rowStart =>
  Prog.read (rp.get (i + 1)) fun rowEnd =>
  Prog.seqFor rowStart rowEnd (csrInnerP ci v base x xo b (yo + i))

/-- `spmv_csr` — spmv/omp/csr.h:6-20. -/
def csrP [Add T] [Mul T] (rp ci : Buf Nat) (v : Buf T) (base rows : Nat) (x : Buf T) (xo : Nat) (b yo : Nat) : Prog T :=
  Prog.parFor 0 rows (csrRowP rp ci v base x xo b yo)

/-- `Csr::spmv` — csr.1.h:26-29; `BlockCsr::spmv` — block_csr.h:23-26; `BlockCsrParallel::spmv` — blocks.h:69-72. -/
def Csr.spmvP [Add T] [Mul T] (A : Csr T) (x : Buf T) (xo b yo : Nat) : Prog T :=
  csrP A.rowPtr A.colInd A.val 0 A.rows x xo b yo

/-- The row loop of `spmv_csr_serial` — spmv/csr.h:14-23: `n` rows from row `i` on, `rowStart` carried along. -/
def csrSerialRowsP [Add T] [Mul T] (rp ci : Buf Nat) (v : Buf T) (base : Nat) (x : Buf T) (xo b yo : Nat) :
    Nat → Nat → Nat → Prog T
  | 0, _, _ => .ret 0
  | n + 1, i, rowStart =>
    Prog.read (rp.get (i + 1)) fun rowEnd =>
    (Prog.seqFor rowStart rowEnd (csrInnerP ci v base x xo b (yo + i))).seq fun _ =>
    csrSerialRowsP rp ci v base x xo b yo n (i + 1) rowEnd

/-- `spmv_csr_serial` — spmv/csr.h:4-24. -/
def csrSerialP [Add T] [Mul T] (rp ci : Buf Nat) (v : Buf T) (base rows : Nat) (x : Buf T) (xo b yo : Nat) : Prog T :=
  Prog.read (rp.get 0) fun r0 => csrSerialRowsP rp ci v base x xo b yo rows 0 r0

/-- `BlockCsrSerial::spmv` — blocks.h:53-56. -/
def Csr.spmvSerialP [Add T] [Mul T] (A : Csr T) (x : Buf T) (xo b yo : Nat) : Prog T :=
  csrSerialP A.rowPtr A.colInd A.val 0 A.rows x xo b yo

/-- One iteration of `spmv_csr2` — spmv/omp/csr.h:27-37. -/
def csr2RowP [Add T] [Mul T] (A : Csr2 T) (x : Buf T) (b : Nat) (i : Nat) : Prog T :=
  Prog.read (A.rowPtr.get i) fun rowStart =>
  Prog.read (A.rowPtr.get (i + 1)) fun rowEnd =>
  accP b i rowStart rowEnd (csr2Inner A x)

/-- `spmv_csr2` — spmv/omp/csr.h:22-38. -/
def Csr2.spmvP [Add T] [Mul T] (A : Csr2 T) (x : Buf T) (b : Nat) : Prog T := Prog.parFor 0 A.rows (csr2RowP A x b)

/-- One iteration of `spmv_dense` — spmv/omp/dense.h:11-17. -/
def denseRowP [Add T] [Mul T] (M : Nat) (val : Buf T) (columns : Nat) (x : Buf T) (xo b yo : Nat) (i : Nat) : Prog T :=
  accP b (yo + i) 0 columns fun j t => do
    let v ← val.get (addM M (mulM M i columns) j)
    let xj ← x.get (xo + j)
    .ok (t + v * xj)

/-- `spmv_dense` — spmv/omp/dense.h:5-18. -/
def Dense.spmvP [Add T] [Mul T] (M : Nat) (A : Dense T) (x : Buf T) (xo b yo : Nat) : Prog T :=
  Prog.parFor 0 A.rows (denseRowP M A.val A.columns x xo b yo)

/-- `spmv_dense_serial` — spmv/dense.h:4-21 (`DenseSerial::spmv`). -/
def Dense.spmvSerialP [Add T] [Mul T] (M : Nat) (A : Dense T) (x : Buf T) (xo b yo : Nat) : Prog T :=
  Prog.seqFor 0 A.rows (denseRowP M A.val A.columns x xo b yo)

/-- One iteration of `spmv(CompRowCsr)` — spmv/omp/crcsr.h:13-25. -/
def crcsrRowP [Add T] [Mul T] (A : CrCsr T) (x : Buf T) (b : Nat) (i : Nat) : Prog T :=
  Prog.read (A.rowPtr.get i) fun rowStart =>
  Prog.read (A.rowPtr.get (i + 1)) fun rowEnd =>
  Prog.read (A.nnzRows.get i) fun ri =>
  accP b ri rowStart rowEnd fun k t => do
    let v ← A.val.get k
    let c ← A.colInd.get k
    let xc ← x.get c
    .ok (t + v * xc)

/-- `spmv(CompRowCsr)` — spmv/omp/crcsr.h:6-26. -/
def CrCsr.spmvP [Add T] [Mul T] (A : CrCsr T) (x : Buf T) (b : Nat) : Prog T :=
  Prog.parFor 0 A.nnzRowsNum (crcsrRowP A x b)

/-- `spmv_coo(v, ri, ci, nnz, x, y)` — spmv/coo.h:4-13; sequential. -/
def cooP [Add T] [Mul T] (v : Buf T) (ri ci : Buf Nat) (base nnz : Nat) (x : Buf T) (xo b yo : Nat) : Prog T :=
  Prog.seqFor 0 nnz fun i =>
  Prog.read (ri.get (base + i)) fun r =>
  Prog.read (v.get (base + i)) fun vi =>
  Prog.read (ci.get (base + i)) fun c =>
  maccP b (yo + r) vi x (xo + c)

/-- `Coo::spmv` — coo.1.h:56-59; `BlockCoo::spmv` — block_coo.1.h:33-36. -/
def Coo.spmvP [Add T] [Mul T] (A : Coo T) (x : Buf T) (xo b yo : Nat) : Prog T :=
  cooP A.val A.I A.J 0 A.nnz x xo b yo

/-- One iteration of `Cswr::spmv` — cswr.h:31-38. -/
def cswrRowP [Add T] [Mul T] (M : Nat) (A : Cswr T) (x : Buf T) (b : Nat) (i : Nat) : Prog T :=
  Prog.read (A.wrowPtr.get i) fun st =>
  Prog.read (A.wrowPtr.get (i + 1)) fun en =>
  cooP A.val A.row A.col st (subM M en st) x 0 b (mulM M A.width i)

/-- `Cswr::spmv` — cswr.h:26-40. -/
def Cswr.spmvP [Add T] [Mul T] (M : Nat) (A : Cswr T) (x : Buf T) (b : Nat) : Prog T :=
  Prog.parFor 0 A.nwrows (cswrRowP M A x b)

end Gsb
