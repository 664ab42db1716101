import Verif.Model.Gsb
import Verif.Model.Csbr
import Verif.Model.Dense
/-
Models of include/matrix/cgbr.h, cgbr.2.h and of the block factory in blocks.h.
-/
namespace Gsb
variable {T : Type}

/-! ### The constructor loop shared by `Cgbr` and `Cgbr2` -/

/-- Building one block: given its size and its elements in local coordinates, returns the block
type (`MatrixType`, typedefs.h), the block, and the elements as the call leaves them in the array.
`Coo_to_MatrixBlock` (cgbr.h:213-239), `BlockFactory::create` (blocks.h:77-84). -/
abbrev MakeBlock (β T : Type) := Nat → Nat → List (Element T) → C (Nat × β × List (Element T))

/-- `while (j<nnz && elements[j].block == b) j++` — cgbr.h:300, cgbr.2.h:134. -/
def scanEnd (M : Nat) (es : List (Element T)) (b j : Nat) : C Nat :=
  whileLoop (fun j => if j < es.length then do
      let e ← rd es j
      .ok (e.block == b)
    else .ok false)
    (fun j => .ok (addM M j 1)) (es.length + 1) j

/-- "Adjust indeces inside block" — cgbr.h:314-322, cgbr.2.h:148-155. -/
def localize (M : Nat) (c : Cur) (es : List (Element T)) (i j : Nat) : C (List (Element T)) :=
  forLoop i j es fun k es => do
    let e ← rd es k
    assertInBlock M c e.row e.col
    .ok (es.set k { e with row := subM M e.row c.brOff, col := subM M e.col c.bcOff })

/-- The variables of the constructor loop. -/
structure GbrFill (β T : Type) where
  i : Nat
  blockIndex : Nat
  es : List (Element T)
  blockrowPtr : Buf Nat
  blockcolInd : Buf Nat
  blocks : Buf β
  typeBlocks : Buf Nat
  typeNnz : Buf Nat

/-- One block — cgbr.h:294-332, cgbr.2.h:128-166. -/
def gbrStep {β : Type} (M : Nat) (make : MakeBlock β T) (offR offC : List Nat) (blockcols : Nat)
    (s : GbrFill β T) : C (GbrFill β T) := do
  let e ← rd s.es s.i
  let j ← scanEnd M s.es e.block (addM M s.i 1)
  let c ← blockCoords M offR offC blockcols e.block
  let brp ← incr M s.blockrowPtr (addM M c.1 1)
  let bci ← s.blockcolInd.put s.blockIndex c.2.1
  let es ← localize M c.2.2 s.es s.i j
  let r ← make c.2.2.brSize c.2.2.bcSize ((es.take j).drop s.i)
  let blocks ← s.blocks.put s.blockIndex r.2.1
  let tb ← incr M s.typeBlocks r.1
  let a ← s.typeNnz.get r.1
  let tn ← s.typeNnz.put r.1 (addM M a (subM M j s.i))
  .ok ⟨j, addM M s.blockIndex 1, es.take s.i ++ r.2.2 ++ es.drop j, brp, bci, blocks, tb, tn⟩

/-- The members of `Cgbr` (cgbr.h:99-124) and `Cgbr2` (cgbr.2.h:17-40) set by the constructor,
except `balanced` and `partition`.  `β` is the type of blocks. -/
structure Gbr (β : Type) where
  blocks : Buf β
  blockrowPtr : Buf Nat
  blockcolInd : Buf Nat
  typeBlocks : Buf Nat
  typeNnz : Buf Nat
  offR : List Nat
  offC : List Nat
  blockrows : Nat
  blockcols : Nat
  nnzblocks : Nat
  rows : Nat
  columns : Nat
  nnz : Nat

/-- From `count_blocks` to the assertion on `blockrow_ptr` — cgbr.h:271-342 without the checks of
281-284, cgbr.2.h:112-172.  `MATRIX_TYPE_NUM` is 6. -/
def gbrBuild {β : Type} (M : Nat) (make : MakeBlock β T) (es : List (Element T)) (rows columns : Nat)
    (offR : List Nat) (blockrows : Nat) (offC : List Nat) (blockcols : Nat) :
    C (Gbr β × List (Element T)) := do
  let n ← countBlocks M es
  let init : GbrFill β T := ⟨0, 0, es, Buf.filled (addM M blockrows 1) 0, Buf.uninit n, Buf.uninit n,
    Buf.filled 6 0, Buf.filled 6 0⟩
  let s ← whileLoop (fun s => .ok (decide (s.i < es.length))) (gbrStep M make offR offC blockcols)
    (es.length + 1) init
  let brp ← prefixSum M s.blockrowPtr blockrows
  let t ← brp.get blockrows
  cassert (t == n)
  .ok (⟨s.blocks, brp, s.blockcolInd, s.typeBlocks, s.typeNnz, offR, offC, blockrows, blockcols, n,
    rows, columns, es.length⟩, s.es)

/-- What `spmv_blocked` and `partition_init` see of a `Cgbr`/`Cgbr2` — cgbr.h:126-150,
cgbr.2.h:59-82. -/
def Gbr.toBlockMat {β : Type} (A : Gbr β) (spmv : β → Buf T → Nat → Buf T → Nat → C (Buf T))
    (nonzeros : β → C Nat) : BlockMat T where
  blockrows := A.blockrows
  blockrowPtr := A.blockrowPtr
  blockcolInd := A.blockcolInd
  rowOff := fun i => rd A.offR i
  colOff := fun i => rd A.offC i
  blockSpmv := fun k x xo y yo => do
    let b ← A.blocks.get k
    spmv b x xo y yo
  blockNnz := fun k => do
    let b ← A.blocks.get k
    nonzeros b
  nnz := A.nnz

/-! ### Cgbr -/

/-- `MatrixBlock` — cgbr.h:19-33: a tagged union. -/
inductive MatrixBlock (T : Type) where
  | coo (A : Coo T)
  | csr (A : Csr T)
  | dense (A : Dense T)

/-- `MatrixBlock::nonzeros` — cgbr.h:35-49. -/
def MatrixBlock.nonzeros (M : Nat) : MatrixBlock T → C Nat
  | .coo A => .ok A.nnz
  | .csr A => A.nonzeros
  | .dense A => .ok (mulM M A.rows A.columns)

/-- `MatrixBlock::spmv` — cgbr.h:55-71. -/
def MatrixBlock.spmv [Add T] [Mul T] (M : Nat) : MatrixBlock T → Buf T → Nat → Buf T → Nat → C (Buf T)
  | .coo A => A.spmv
  | .csr A => A.spmv
  | .dense A => A.spmv M

/-- `MatrixBlock::spmv_serial` — cgbr.h:77-93. -/
def MatrixBlock.spmvSerial [Add T] [Mul T] (M : Nat) : MatrixBlock T → Buf T → Nat → Buf T → Nat → C (Buf T)
  | .coo A => A.spmv
  | .csr A => A.spmvSerial
  | .dense A => A.spmv M

/-- Outcome of the size comparison in `Coo_to_MatrixBlock`. -/
inductive BlockChoice where
  | coo
  | csr
  | dense
  deriving DecidableEq, Repr

/-- `Coo_to_MatrixBlock` — cgbr.h:213-239, with the floating point comparisons of 219-226 left as the
parameter `choose rows columns nnz` (its exact version is `chooseCgbr`).  Block types:
`BLOCK_COO = 0`, `BLOCK_CSR = 1`, `BLOCK_DENSE = 2`. -/
def cooToMatrixBlock [Zero T] (M S : Nat) (choose : Nat → Nat → Nat → BlockChoice) :
    MakeBlock (MatrixBlock T) T := fun rows columns g =>
  match choose rows columns g.length with
  | .coo => do
    let r ← cooToBlockCoo M S g
    .ok (0, .coo r.1, r.2)
  | .csr => do
    let r ← cooToBlockCsr M S g rows columns
    .ok (1, .csr r.1, r.2)
  | .dense => do
    let d ← cooToDense M g rows columns
    .ok (2, .dense d, g)

/-- `Cgbr<T,IT,SIT>` — cgbr.h:99-124. -/
structure Cgbr (T : Type) where
  base : Gbr (MatrixBlock T)
  balanced : Bool
  partition : List (List Nat)

/-- A `Cgbr` as `spmv_blocked` sees it. -/
def Cgbr.toBlockMat [Add T] [Mul T] (M : Nat) (A : Gbr (MatrixBlock T)) : BlockMat T :=
  A.toBlockMat (MatrixBlock.spmv M) (MatrixBlock.nonzeros M)

/-- `Cgbr::is_balanced` — cgbr.h:155-181.  `heavy nnz blockrows counts` stands for the floating
point comparison `br_nnz > 2.0f * mean_nnz` with `br_nnz` the float sum of `counts`. -/
def isBalanced [Add T] [Mul T] (M : Nat) (heavy : Nat → Nat → List Nat → Bool) (A : Gbr (MatrixBlock T)) : C Bool :=
  forLoop 0 A.blockrows true fun i ok =>
    if !ok then .ok false
    else do
      let lo ← A.blockrowPtr.get i
      let hi ← A.blockrowPtr.get (i + 1)
      let counts ← forLoop lo hi [] fun k l => do
        let _ ← A.blockcolInd.get k
        let n ← (Cgbr.toBlockMat M A).blockNnz k
        .ok (l ++ [n])
      .ok (!heavy A.nnz A.blockrows counts)

/-- `Coo_to_Cgbr` — cgbr.h:244-349; `Coo_to_Blocked` (cgbr.h:363-371) calls it.  Also returns the
element array as the call leaves it. -/
def cooToCgbr [Add T] [Mul T] [Zero T] (M S workers : Nat) (choose : Nat → Nat → Nat → BlockChoice)
    (heavy : Nat → Nat → List Nat → Bool) (es : List (Element T)) (rows columns : Nat)
    (offR : List Nat) (blockrows : Nat) (offC : List Nat) (blockcols : Nat) :
    C (Cgbr T × List (Element T)) := do
  let es ← calculateBlockId M es offR blockrows offC blockcols
  let es := sortElementsBlocks es
  let _ ← countBlocks M es
  checkPartition offR blockrows rows offC blockcols columns
  let r ← gbrBuild M (cooToMatrixBlock M S choose) es rows columns offR blockrows offC blockcols
  let balanced ← isBalanced M heavy r.1
  let p ← if balanced then .ok [] else partitionInit M workers (Cgbr.toBlockMat M r.1)
  .ok (⟨r.1, balanced, p⟩, r.2)

/-- `Coo_to_Cgbr(A, B, br_size, bc_size)` — cgbr.h:354-361 with generic/gsb.h:13-42. -/
def cooToCgbrConst [Add T] [Mul T] [Zero T] (M S workers : Nat) (choose : Nat → Nat → Nat → BlockChoice)
    (heavy : Nat → Nat → List Nat → Bool) (es : List (Element T)) (rows columns brSize bcSize : Nat) :
    C (Cgbr T × List (Element T)) := do
  let r ← constOffsets M rows brSize
  let c ← constOffsets M columns bcSize
  cooToCgbr M S workers choose heavy es rows columns r.2 r.1 c.2 c.1

/-- `Cgbr::spmv` — cgbr.h:186-189. -/
def Cgbr.spmv [Add T] [Mul T] [Zero T] (M : Nat) (A : Cgbr T) (x y : Buf T) : C (Buf T) :=
  spmvBlocked M (Cgbr.toBlockMat M A.base) A.balanced A.partition x y

/-- `Cgbr::spmv_serial` — cgbr.h:191-213: the loops of `spmv_balanced` with the blocks' serial
kernels. -/
def Cgbr.spmvSerial [Add T] [Mul T] (M : Nat) (A : Cgbr T) (x y : Buf T) : C (Buf T) :=
  spmvBalanced (A.base.toBlockMat (MatrixBlock.spmvSerial M) (MatrixBlock.nonzeros M)) x y

/-! ### Cgbr2 -/

/-- `BlockBase<T,IT>` — include/generic/base.h:7-20: the stored `nnz` and the virtual `spmv`, as the function it
computes when run alone (`spmv`) and as a program over shared memory (`code`). -/
structure BlockObj (T : Type) where
  nnz : Nat
  spmv : Buf T → Nat → Buf T → Nat → C (Buf T)
  code : Buf T → Nat → Nat → Nat → Prog T

/-- Outcome of the comparisons in `BlockFactoryDefault::create`. -/
inductive FactoryChoice where
  | coo
  | csr
  | csrPar
  | dense
  deriving DecidableEq, Repr

/-- `BlockFactoryDefault::create` — blocks.h:86-121 with the floating point comparisons of
92-97, 101, 103 left as the parameter `choose rows columns nnz`.  Types: `BLOCK_COO = 0`,
`BLOCK_CSR = 1`, `BLOCK_CSR_PAR = 4`, `BLOCK_DENSE = 2`. -/
def factoryDefault [Add T] [Mul T] [Zero T] (M S : Nat) (choose : Nat → Nat → Nat → FactoryChoice) :
    MakeBlock (BlockObj T) T := fun rows columns g =>
  match choose rows columns g.length with
  | .coo => do
    let r ← mkCoo M S g
    .ok (0, ⟨g.length, r.1.spmv, r.1.spmvP⟩, r.2)
  | .csr => do
    let A ← csrBuild M S g rows columns
    .ok (1, ⟨g.length, A.spmvSerial, A.spmvSerialP⟩, g)
  | .csrPar => do
    let A ← csrBuild M S g rows columns
    .ok (4, ⟨g.length, A.spmv, A.spmvP⟩, g)
  | .dense => do
    let A ← mkDense M g rows columns
    .ok (2, ⟨g.length, A.spmv M, A.spmvP M⟩, g)

/-- `Cgbr2<T,IT,SIT>` — cgbr.2.h:17-40.  The member `balanced` is never assigned. -/
structure Cgbr2 (T : Type) where
  base : Gbr (BlockObj T)
  partition : List (List Nat)

/-- A `Cgbr2` as `spmv_blocked` sees it. -/
def Cgbr2.toBlockMat (A : Gbr (BlockObj T)) : BlockMat T :=
  A.toBlockMat BlockObj.spmv (fun b => .ok b.nnz)

/-- `Cgbr2::create` — cgbr.2.h:86-177, and `Coo_to_Cgbr(Cgbr2*, …, factory)` — cgbr.2.h:189-197. -/
def cgbr2Create (M workers : Nat) (factory : MakeBlock (BlockObj T) T)
    (es : List (Element T)) (rows columns : Nat)
    (offR : List Nat) (blockrows : Nat) (offC : List Nat) (blockcols : Nat) :
    C (Cgbr2 T × List (Element T)) := do
  checkPartition offR blockrows rows offC blockcols columns
  let es ← calculateBlockId M es offR blockrows offC blockcols
  let es := sortElementsBlocks es
  let r ← gbrBuild M factory es rows columns offR blockrows offC blockcols
  let p ← partitionInit M workers (Cgbr2.toBlockMat r.1)
  .ok (⟨r.1, p⟩, r.2)

/-- `Cgbr2::spmv` — cgbr.2.h:53-56.  `balanced` is whatever the uninitialised member holds. -/
def Cgbr2.spmv [Add T] [Zero T] (M : Nat) (balanced : Bool) (A : Cgbr2 T) (x y : Buf T) : C (Buf T) :=
  spmvBlocked M (Cgbr2.toBlockMat A.base) balanced A.partition x y

/-! ### The kernels as programs over shared memory -/

/-- `MatrixBlock::spmv` — cgbr.h:55-71. -/
def MatrixBlock.spmvP [Add T] [Mul T] (M : Nat) : MatrixBlock T → Buf T → Nat → Nat → Nat → Prog T
  | .coo A => A.spmvP
  | .csr A => A.spmvP
  | .dense A => A.spmvP M

/-- `block(k)->spmv(x + xo, y)` of a `Cgbr`/`Cgbr2` — cgbr.h:129-132, cgbr.2.h:58-61. -/
def Gbr.code {β : Type} (A : Gbr β) (code : β → Buf T → Nat → Nat → Nat → Prog T) : BlockCode T := fun k x xo b yo =>
  Prog.read (A.blocks.get k) fun blk => code blk x xo b yo

/-- `Cgbr::spmv` — cgbr.h:186-189. -/
def Cgbr.spmvP [Add T] [Mul T] [Zero T] (M : Nat) (A : Cgbr T) (x : Buf T) (b : Nat) : Prog T :=
  spmvBlockedP M (Cgbr.toBlockMat M A.base) (A.base.code (MatrixBlock.spmvP M)) A.balanced A.partition x b

/-- `Cgbr2::spmv` — cgbr.2.h:53-56; `balanced` as in `Cgbr2.spmv`. -/
def Cgbr2.spmvP [Add T] [Zero T] (M : Nat) (balanced : Bool) (A : Cgbr2 T) (x : Buf T) (b : Nat) : Prog T :=
  spmvBlockedP M (Cgbr2.toBlockMat A.base) (A.base.code BlockObj.code) balanced A.partition x b

end Gsb
