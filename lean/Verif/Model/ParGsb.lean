import Verif.Model.Gsb
import Verif.Model.ParKernels
/-
The multi-threaded SpMV kernels of the blocked formats as fork/join programs: include/spmv/omp/gsb.h.  `y` is cell
`yo`, `yo+1`, … of array `b`.
-/
namespace Gsb
variable {T : Type}

/-- The code of `block(k)->spmv(x + xo, y + yo)`. -/
abbrev BlockCode (T : Type) := (k : Nat) → (x : Buf T) → (xo : Nat) → (b yo : Nat) → Prog T

/-- `for k in [start,end): block(k)->spmv(x + x_offset, y)` — spmv/omp/gsb.h:24-28 and 78-83. -/
def spmvBlocksP (A : BlockMat T) (code : BlockCode T) (lo hi : Nat) (x : Buf T) (b yo : Nat) : Prog T :=
  Prog.seqFor lo hi fun k =>
  Prog.read (A.blockcolInd.get k) fun c =>
  Prog.read (A.colOff c) fun xo =>
  code k x xo b yo

/-- One block-row of `spmv_balanced` — spmv/omp/gsb.h:67-84. -/
def spmvBalancedRowP (A : BlockMat T) (code : BlockCode T) (x : Buf T) (b : Nat) (bi : Nat) : Prog T :=
  Prog.read (A.blockrowPtr.get bi) fun lo =>
  Prog.read (A.blockrowPtr.get (bi + 1)) fun hi =>
  Prog.read (A.rowOff bi) fun yo =>
  spmvBlocksP A code lo hi x b yo

/-- `spmv_balanced` — spmv/omp/gsb.h:58-85. -/
def spmvBalancedP (A : BlockMat T) (code : BlockCode T) (x : Buf T) (b : Nat) : Prog T :=
  Prog.parFor 0 A.blockrows (spmvBalancedRowP A code x b)

/-- `for (i=0; i<bsize; i++) y[i] += temp[i];` — spmv/omp/gsb.h:47-49. -/
def addTempP [Add T] (b yo temp bsize : Nat) : Prog T :=
  Prog.seqFor 0 bsize fun i =>
  .load (b, yo + i) fun a =>
  .load (temp, i) fun t =>
  .store (b, yo + i) (some (a + t)) (.ret 0)

/-- `spmv_chunk` — spmv/omp/gsb.h:15-55: the first half is an `omp task`; the parent allocates `temp`, does the second
half into it, waits for the task (`taskwait`), adds and releases `temp`.  `RT_SYNCHED` is 0 (rt.h). -/
def spmvChunkP [Add T] [Zero T] (M : Nat) (A : BlockMat T) (code : BlockCode T) (chunks : List Nat) (x : Buf T) (bsize : Nat) :
    (fuel : Nat) → (first last : Nat) → (b yo : Nat) → Prog T
  | 0, _, _, _, _ => .fail .budget
  | fuel + 1, first, last, b, yo =>
    if subM M last first = 1 then
      Prog.read (rd chunks first) fun bstart =>
      Prog.read (rd chunks last) fun bend =>
      spmvBlocksP A code bstart bend x b yo
    else
      let middle := addM M first last / 2
      .fork (spmvChunkP M A code chunks x bsize fuel first middle b yo)
        (.alloc bsize (some 0) fun temp => (spmvChunkP M A code chunks x bsize fuel middle last temp 0).seq fun _ => .ret temp)
        fun temp => (addTempP b yo temp bsize).seq fun _ => .free temp bsize (.ret 0)

/-- One block-row of the unbalanced path — spmv/omp/gsb.h:111-123. -/
def spmvChunkedRowP [Add T] [Zero T] (M : Nat) (A : BlockMat T) (code : BlockCode T) (partition : List (List Nat))
    (x : Buf T) (b : Nat) (bi : Nat) : Prog T :=
  Prog.read (rd partition bi) fun chunks =>
  Prog.read (A.rowOff bi) fun yStart =>
  Prog.read (A.rowOff (addM M bi 1)) fun yEnd =>
  spmvChunkP M A code chunks x (subM M yEnd yStart) chunks.length 0 (subM M (chunks.length % M) 1) b yStart

/-- `spmv_blocked` — spmv/omp/gsb.h:98-127. -/
def spmvBlockedP [Add T] [Zero T] (M : Nat) (A : BlockMat T) (code : BlockCode T) (balanced : Bool)
    (partition : List (List Nat)) (x : Buf T) (b : Nat) : Prog T :=
  if balanced then spmvBalancedP A code x b
  else Prog.parFor 0 A.blockrows (spmvChunkedRowP M A code partition x b)

end Gsb
