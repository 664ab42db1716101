import Verif.Model.Scan
/-
The template interface of blocked matrices, include/partition.h and include/spmv/omp/gsb.h.
-/
namespace Gsb
variable {T : Type}

/-- What `spmv_blocked` and `partition_init` use of a blocked matrix — include/spmv/omp/gsb.h:87-96:
`blockrow_ptr`, `blockcol_ind`, `get_block_row_offset`, `get_block_column_offset`, `block(k)->spmv`,
`block_nonzeros`, `nnz`. -/
structure BlockMat (T : Type) where
  blockrows : Nat
  blockrowPtr : Buf Nat
  blockcolInd : Buf Nat
  rowOff : Nat → C Nat
  colOff : Nat → C Nat
  blockSpmv : Nat → Buf T → Nat → Buf T → Nat → C (Buf T)
  blockNnz : Nat → C Nat
  nnz : Nat

/-- `for k in [start,end): block(k)->spmv(x + x_offset, y + y_offset)` — spmv/omp/gsb.h:24-28 and
78-83. -/
def spmvBlocks (A : BlockMat T) (lo hi : Nat) (x : Buf T) (y : Buf T) (yo : Nat) : C (Buf T) :=
  forLoop lo hi y fun k y => do
    let c ← A.blockcolInd.get k
    let xo ← A.colOff c
    A.blockSpmv k x xo y yo

/-- One block-row of `spmv_balanced` — spmv/omp/gsb.h:67-84. -/
def spmvBalancedRow (A : BlockMat T) (x : Buf T) (bi : Nat) (y : Buf T) : C (Buf T) := do
  let lo ← A.blockrowPtr.get bi
  let hi ← A.blockrowPtr.get (bi + 1)
  let yo ← A.rowOff bi
  spmvBlocks A lo hi x y yo

/-- `spmv_balanced` — spmv/omp/gsb.h:58-85, block-rows in order.  Other schedules:
`Verif.Props.Schedule`. -/
def spmvBalanced (A : BlockMat T) (x y : Buf T) : C (Buf T) :=
  forLoop 0 A.blockrows y (spmvBalancedRow A x)

/-- `spmv_chunk` — spmv/omp/gsb.h:15-52 with the task run first (the sequential order of the same
recursion); `RT_SYNCHED` is 0 (rt.h).  `chunks` is `partition->chunks`; `fuel` bounds the recursion
depth. -/
def spmvChunk [Add T] [Zero T] (M : Nat) (A : BlockMat T) (chunks : List Nat) (x : Buf T) (bsize : Nat) :
    (fuel : Nat) → (first last : Nat) → (y : Buf T) → (yo : Nat) → C (Buf T)
  | 0, _, _, _, _ => .error .budget
  | fuel + 1, first, last, y, yo =>
    if subM M last first = 1 then do
      let bstart ← rd chunks first
      let bend ← rd chunks last
      spmvBlocks A bstart bend x y yo
    else do
      let middle := addM M first last / 2
      let y ← spmvChunk M A chunks x bsize fuel first middle y yo
      let temp : Buf T := Buf.filled bsize 0
      let temp ← spmvChunk M A chunks x bsize fuel middle last temp 0
      forLoop 0 bsize y fun i y => do
        let a ← y.get (yo + i)
        let t ← temp.get i
        y.put (yo + i) (a + t)

/-- One block-row of the unbalanced path of `spmv_blocked` — spmv/omp/gsb.h:111-123. -/
def spmvChunkedRow [Add T] [Zero T] (M : Nat) (A : BlockMat T) (partition : List (List Nat)) (x : Buf T)
    (bi : Nat) (y : Buf T) : C (Buf T) := do
  let chunks ← rd partition bi
  let nchunks := subM M (chunks.length % M) 1
  let yStart ← A.rowOff bi
  let yEnd ← A.rowOff (addM M bi 1)
  spmvChunk M A chunks x (subM M yEnd yStart) chunks.length 0 nchunks y yStart

/-- `spmv_blocked` — spmv/omp/gsb.h:98-127. -/
def spmvBlocked [Add T] [Zero T] (M : Nat) (A : BlockMat T) (balanced : Bool) (partition : List (List Nat))
    (x y : Buf T) : C (Buf T) :=
  if balanced then spmvBalanced A x y
  else forLoop 0 A.blockrows y (spmvChunkedRow M A partition x)

/-- `partition_blockrow(A, partition, start, end)` — include/partition.h:23-46: the vector `chunks`.
`workers` is `omp_get_max_threads()`; `PARTITION_FACTOR` is 1, `PARTITION_FACTOR_INV` is 2
(params.h). -/
def partitionBlockrow (M workers : Nat) (nnz : Nat) (blockNnz : Nat → C Nat) (start stop : Nat) :
    C (List Nat) := do
  let minNnz ← cdiv nnz (2 * workers)
  let s ← forLoop start stop (0, [start]) fun b s => do
    let n ← blockNnz b
    let nnz := addM M s.1 n
    if nnz > minNnz ∧ b < subM M stop 1 then .ok (0, s.2 ++ [b]) else .ok (nnz, s.2)
  .ok (s.2 ++ [stop])

/-- `partition_init(A)` — include/partition.h:68-77 and 82-91. -/
def partitionInit (M workers : Nat) (A : BlockMat T) : C (List (List Nat)) :=
  forLoop 0 A.blockrows [] fun br l => do
    let lo ← A.blockrowPtr.get br
    let hi ← A.blockrowPtr.get (br + 1)
    let p ← partitionBlockrow M workers A.nnz A.blockNnz lo hi
    .ok (l ++ [p])

end Gsb
