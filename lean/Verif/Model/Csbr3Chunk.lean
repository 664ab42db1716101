import Verif.Model.Csbr
/-
The task kernel of Csbr3: include/spmv/omp/csbr.3.h:45-131.  Nothing in the repository calls it: `balanced` and `partition` are
never set by the constructor, and `spmv(Csbr3*)` (103-131) is a template that cannot be instantiated, because it calls a free
function `get_block_row_offset(A, bi)` where there is only the member function, and uses the member function `nchunks()` of
`BlockRowPartition` as a field.
-/
namespace Gsb
variable {T : Type}

/-- The blocks `lo … hi-1` of one chunk — spmv/omp/csbr.3.h:65-76.  `y` is the pointer `y + yo`. -/
def Csbr3.spmvBlocks [Add T] [Mul T] (M : Nat) (A : Csbr3 T) (lo hi : Nat) (x y : Buf T) (yo : Nat) : C (Buf T) :=
  forLoop lo hi y fun k y => do
    let c ← A.blockcolInd.get k
    let s ← A.blockPtr.get k
    let e ← A.blockPtr.get (k + 1)
    spmvCoo A.val A.rowInd A.colInd s (subM M e s) x (mulM M c A.blockSize) y yo

/-- `spmv_chunk(Csbr3*)` — spmv/omp/csbr.3.h:48-101 with the task run first; `RT_SYNCHED` is 0 (rt.h).  `chunks` is
`partition->chunks`, `y` the pointer `y + yo`; `fuel` bounds the depth of the recursion. -/
def Csbr3.spmvChunk [Add T] [Mul T] [Zero T] (M : Nat) (A : Csbr3 T) (chunks : List Nat) (x : Buf T) :
    (fuel : Nat) → (first last : Nat) → (y : Buf T) → (yo : Nat) → C (Buf T)
  | 0, _, _, _, _ => .error .budget
  | fuel + 1, first, last, y, yo =>
    if subM M last first = 1 then do
      let lo ← rd chunks first
      let hi ← rd chunks last
      A.spmvBlocks M lo hi x y yo
    else do
      let middle := addM M first last / 2
      let y ← Csbr3.spmvChunk M A chunks x fuel first middle y yo
      let temp : Buf T := Buf.filled A.blockSize 0
      let temp ← Csbr3.spmvChunk M A chunks x fuel middle last temp 0
      forLoop 0 A.blockSize y fun i y => do
        let a ← y.get (yo + i)
        let t ← temp.get i
        y.put (yo + i) (a + t)

/-- The loop over block-rows — spmv/omp/csbr.3.h:119-129, the unbalanced path, block-rows in order.  `get_block_row_offset(A, bi)`
is read as the member function `A->get_block_row_offset(bi)` (csbr.3.h:49-52), `nchunks` as `nchunks()` (partition.h:15), one less
than the number of entries of `chunks`. -/
def Csbr3.spmvChunked [Add T] [Mul T] [Zero T] (M : Nat) (A : Csbr3 T) (partition : List (List Nat)) (x y : Buf T) : C (Buf T) :=
  forLoop 0 A.blockrows y fun bi y => do
    let chunks ← rd partition bi
    A.spmvChunk M chunks x chunks.length 0 (subM M (chunks.length % M) 1) y (mulM M bi A.blockSize)

/-! ### As programs over shared memory -/

/-- The blocks of one chunk — spmv/omp/csbr.3.h:65-76. -/
def Csbr3.blocksP [Add T] [Mul T] (M : Nat) (A : Csbr3 T) (lo hi : Nat) (x : Buf T) (b yo : Nat) : Prog T :=
  Prog.seqFor lo hi fun k =>
  Prog.read (A.blockcolInd.get k) fun c =>
  Prog.read (A.blockPtr.get k) fun s =>
  Prog.read (A.blockPtr.get (k + 1)) fun e =>
  cooP A.val A.rowInd A.colInd s (subM M e s) x (mulM M c A.blockSize) b yo

/-- `spmv_chunk(Csbr3*)` — spmv/omp/csbr.3.h:48-101: the first half is a task, the second half goes into a new array of zeros,
which is added to `y` after the task has ended. -/
def Csbr3.spmvChunkP [Add T] [Mul T] [Zero T] (M : Nat) (A : Csbr3 T) (chunks : List Nat) (x : Buf T) :
    (fuel : Nat) → (first last : Nat) → (b yo : Nat) → Prog T
  | 0, _, _, _, _ => .fail .budget
  | fuel + 1, first, last, b, yo =>
    if subM M last first = 1 then
      Prog.read (rd chunks first) fun lo =>
      Prog.read (rd chunks last) fun hi =>
      A.blocksP M lo hi x b yo
    else
      let middle := addM M first last / 2
      .fork (Csbr3.spmvChunkP M A chunks x fuel first middle b yo)
        (.alloc A.blockSize (some 0) fun temp =>
          (Csbr3.spmvChunkP M A chunks x fuel middle last temp 0).seq fun _ => .ret temp)
        fun temp => (addTempP b yo temp A.blockSize).seq fun _ => .free temp A.blockSize (.ret 0)

/-- The loop over block-rows — spmv/omp/csbr.3.h:119-129. -/
def Csbr3.spmvChunkedP [Add T] [Mul T] [Zero T] (M : Nat) (A : Csbr3 T) (partition : List (List Nat)) (x : Buf T) (b : Nat) :
    Prog T :=
  Prog.parFor 0 A.blockrows fun bi =>
  Prog.read (rd partition bi) fun chunks =>
  A.spmvChunkP M chunks x chunks.length 0 (subM M (chunks.length % M) 1) b (mulM M bi A.blockSize)

end Gsb
