import Verif.Model.ParGsb
/-
Models of include/matrix/csbr.h (from Coo3), csbr.2.h, csbr.3.h.
-/
namespace Gsb
variable {T : Type}

/-! ### Csbr -/

/-- A `Csr` block of a `Csbr`: `col_ind` and `val` are pointers into the matrix's arrays, given by
their common offset `base` (csbr.h:261-265).  The block's `columns` is never set. -/
structure CsbrBlock where
  rows : Nat
  base : Nat
  rowPtr : Buf Nat

/-- `Csbr<T,IT>` — csbr.h:21-46. -/
structure Csbr (T : Type) where
  blocks : Buf CsbrBlock
  blockrowPtr : Buf Nat
  blockcolInd : Buf Nat
  offR : List Nat
  offC : List Nat
  blockrows : Nat
  blockcols : Nat
  nnzblocks : Nat
  partition : List (List Nat)
  rows : Nat
  columns : Nat
  nnz : Nat
  colInd : Buf Nat
  val : Buf T

/-- The state of the copying loop of the Csbr constructor. -/
structure CsbrFill (T : Type) where
  cur : Option Cur
  blockrowPtr : Buf Nat
  blockcolInd : Buf Nat
  blocks : Buf CsbrBlock
  colInd : Buf Nat
  val : Buf T

/-- Start of a new block — csbr.h:250-265. -/
def csbrNewBlock (M : Nat) (offR offC : List Nat) (blockcols : Nat) (i bi b : Nat) (s : CsbrFill T) :
    C (CsbrFill T) := do
  let c ← blockCoords M offR offC blockcols b
  let brp ← incr M s.blockrowPtr (addM M c.1 1)
  let bci ← s.blockcolInd.put bi c.2.1
  let blocks ← s.blocks.put bi ⟨c.2.2.brSize, i, Buf.filled (addM M c.2.2.brSize 1) 0⟩
  .ok { s with cur := some c.2.2, blockrowPtr := brp, blockcolInd := bci, blocks := blocks }

/-- One element — csbr.h:268-278. -/
def csbrElement (M : Nat) (es : List (Element T)) (i bi : Nat) (s : CsbrFill T) : C (CsbrFill T) := do
  let e ← rd es i
  let c ← needCur s.cur
  assertInBlock M c e.row e.col
  let rowIndex := subM M e.row c.brOff
  let colIndex := subM M e.col c.bcOff
  let blk ← s.blocks.get bi
  let rp ← incr M blk.rowPtr (addM M rowIndex 1)
  let blocks ← s.blocks.put bi { blk with rowPtr := rp }
  let ci ← s.colInd.put i colIndex
  let v ← s.val.put i e.val
  .ok { s with blocks := blocks, colInd := ci, val := v }

/-- `elements[i].block`. -/
def elemBlock (es : List (Element T)) (i : Nat) : C Nat := do
  let e ← rd es i
  .ok e.block

/-- "Get row pointers from row non-zero counters" — csbr.h:284-290, io/blocked.h:149-153. -/
def accumulateBlocks (M n : Nat) (blocks : Buf CsbrBlock) : C (Buf CsbrBlock) :=
  forLoop 0 n blocks fun k blocks => do
    let blk ← blocks.get k
    let rp ← prefixSum M blk.rowPtr blk.rows
    blocks.put k { blk with rowPtr := rp }

/-- `Csbr::block_nonzeros` — csbr.h:56-59. -/
def Csbr.blockNonzeros (blocks : Buf CsbrBlock) (k : Nat) : C Nat := do
  let blk ← blocks.get k
  blk.rowPtr.get blk.rows

/-- The members of a `Csbr` used by `spmv_blocked` and `partition_init` — csbr.h:48-70; a block's
`spmv` is `Csr::spmv` (csr.1.h:26-29) on its part of the arrays. -/
def Csbr.toBlockMat [Add T] [Mul T] (A : Csbr T) : BlockMat T where
  blockrows := A.blockrows
  blockrowPtr := A.blockrowPtr
  blockcolInd := A.blockcolInd
  rowOff := fun i => rd A.offR i
  colOff := fun i => rd A.offC i
  blockSpmv := fun k x xo y yo => do
    let blk ← A.blocks.get k
    spmvCsr blk.rowPtr A.colInd A.val blk.base blk.rows x xo y yo
  blockNnz := Csbr.blockNonzeros A.blocks
  nnz := A.nnz

/-- The checks on the block partition — csbr.h:224-227, csbr.2.h:107-110, cgbr.h:281-284,
cgbr.2.h:103-106. -/
def checkPartition (offR : List Nat) (blockrows rows : Nat) (offC : List Nat) (blockcols columns : Nat) :
    C Unit := do
  cassert (decide (blockrows ≤ rows))
  cassert (decide (blockcols ≤ columns))
  let r ← rd offR blockrows
  cassert (r == rows)
  let c ← rd offC blockcols
  cassert (c == columns)

/-- Everything after the sort in `Coo_to_Csbr(Csbr*, Coo3*, …)` — csbr.h:214-300. -/
def csbrBuild [Add T] [Mul T] (M workers : Nat) (es : List (Element T)) (rows columns : Nat)
    (offR : List Nat) (blockrows : Nat) (offC : List Nat) (blockcols : Nat) : C (Csbr T) := do
  let n ← countBlocks M es
  checkPartition offR blockrows rows offC blockcols columns
  let init : CsbrFill T := ⟨none, Buf.filled (addM M blockrows 1) 0, Buf.uninit n, Buf.uninit n,
    Buf.uninit es.length, Buf.uninit es.length⟩
  let s ← forLoop 0 es.length (⟨M - 1, M - 1, init⟩ : Scan (CsbrFill T))
    (scanStep M (elemBlock es) (csbrNewBlock M offR offC blockcols) (csbrElement M es))
  let blocks ← accumulateBlocks M n s.st.blocks
  let brp ← prefixSum M s.st.blockrowPtr blockrows
  let t ← brp.get blockrows
  cassert (t == n)
  let A : Csbr T := ⟨blocks, brp, s.st.blockcolInd, offR, offC, blockrows, blockcols, n, [], rows, columns,
    es.length, s.st.colInd, s.st.val⟩
  let p ← partitionInit M workers A.toBlockMat
  .ok { A with partition := p }

/-- `Coo_to_Csbr(Csbr*, Coo3*, blockrow_offset, …)` — csbr.h:196-300; `Coo_to_Blocked` for a `Csbr`
(csbr.h:339-345) calls it.  Also returns the element array as the call leaves it. -/
def cooToCsbr [Add T] [Mul T] (M workers : Nat) (es : List (Element T)) (rows columns : Nat)
    (offR : List Nat) (blockrows : Nat) (offC : List Nat) (blockcols : Nat) :
    C (Csbr T × List (Element T)) := do
  let es ← calculateBlockId M es offR blockrows offC blockcols
  let es := sortElementsBlocks es
  let A ← csbrBuild M workers es rows columns offR blockrows offC blockcols
  .ok (A, es)

/-- `Coo_to_Csbr(Csbr*, COOTYPE*, br_size, bc_size)` — csbr.h:307-337. -/
def cooToCsbrConst [Add T] [Mul T] (M workers : Nat) (es : List (Element T)) (rows columns : Nat)
    (brSize bcSize : Nat) : C (Csbr T × List (Element T)) := do
  let r ← constOffsets M rows brSize
  let c ← constOffsets M columns bcSize
  cooToCsbr M workers es rows columns r.2 r.1 c.2 c.1

/-- `Csbr::spmv` — csbr.h:76-79; `balanced` is the member initialiser `true` (csbr.h:37), never
reassigned. -/
def Csbr.spmv [Add T] [Mul T] [Zero T] (M : Nat) (A : Csbr T) (x y : Buf T) : C (Buf T) :=
  spmvBlocked M A.toBlockMat true A.partition x y

/-! ### Csbr2 -/

/-- `Csbr2<T,IT>` — csbr.2.h:15-36. -/
structure Csbr2 (T : Type) where
  blockrowPtr : Buf Nat
  offR : List Nat
  offC : List Nat
  blockrows : Nat
  blockcols : Nat
  nnzblocks : Nat
  rows : Nat
  columns : Nat
  nnz : Nat
  rowPtr : Buf (Buf Nat)
  colInd : Buf Nat
  val : Buf T

/-- The state of the copying loop of the Csbr2 constructor. -/
structure Csbr2Fill (T : Type) where
  cur : Option Cur
  blockrowPtr : Buf Nat
  rowPtr : Buf (Buf Nat)
  colInd : Buf Nat
  val : Buf T

/-- Start of a new block — csbr.2.h:127-139. -/
def csbr2NewBlock (M : Nat) (offR offC : List Nat) (blockcols : Nat) (_i bi b : Nat) (s : Csbr2Fill T) :
    C (Csbr2Fill T) := do
  let c ← blockCoords M offR offC blockcols b
  let brp ← incr M s.blockrowPtr (addM M c.1 1)
  let rps ← s.rowPtr.put bi (Buf.filled (addM M c.2.2.brSize 1) 0)
  .ok { s with cur := some c.2.2, blockrowPtr := brp, rowPtr := rps }

/-- One element — csbr.2.h:142-149.  The column index stays global. -/
def csbr2Element (M : Nat) (es : List (Element T)) (i bi : Nat) (s : Csbr2Fill T) : C (Csbr2Fill T) := do
  let e ← rd es i
  let c ← needCur s.cur
  assertInBlock M c e.row e.col
  let rp ← s.rowPtr.get bi
  let rp ← incr M rp (addM M (subM M e.row c.brOff) 1)
  let rps ← s.rowPtr.put bi rp
  let ci ← s.colInd.put i e.col
  let v ← s.val.put i e.val
  .ok { s with rowPtr := rps, colInd := ci, val := v }

/-- "Get row pointers by accumulating row non-zero counts" — csbr.2.h:159-179,
io/blocked.h:253-269.  State: (nnz_count, row_ptr). -/
def accumulateCsbr2 (M : Nat) (offR : List Nat) (blockrows : Nat) (brp : Buf Nat) (rps : Buf (Buf Nat)) :
    C (Nat × Buf (Buf Nat)) :=
  forLoop 0 blockrows (0, rps) fun br s => do
    let e ← rd offR (addM M br 1)
    let b ← rd offR br
    let lo ← brp.get br
    let hi ← brp.get (br + 1)
    forLoop lo hi s fun k s => do
      let rp ← s.2.get k
      let rp ← rp.put 0 s.1
      let rp ← prefixSum M rp (subM M e b)
      let c ← rp.get (subM M e b)
      let rps ← s.2.put k rp
      .ok (c, rps)

/-- Everything after the sort in `Coo_to_Csbr(Csbr2*, Coo3*, …)` — csbr.2.h:97-182. -/
def csbr2Build (M : Nat) (es : List (Element T)) (rows columns : Nat)
    (offR : List Nat) (blockrows : Nat) (offC : List Nat) (blockcols : Nat) : C (Csbr2 T) := do
  let n ← countBlocks M es
  checkPartition offR blockrows rows offC blockcols columns
  let init : Csbr2Fill T := ⟨none, Buf.filled (addM M blockrows 1) 0, Buf.uninit n,
    Buf.uninit es.length, Buf.uninit es.length⟩
  let s ← forLoop 0 es.length (⟨M - 1, M - 1, init⟩ : Scan (Csbr2Fill T))
    (scanStep M (elemBlock es) (csbr2NewBlock M offR offC blockcols) (csbr2Element M es))
  let brp ← prefixSum M s.st.blockrowPtr blockrows
  let rps ← accumulateCsbr2 M offR blockrows brp s.st.rowPtr
  let t ← brp.get blockrows
  cassert (t == n)
  .ok ⟨brp, offR, offC, blockrows, blockcols, n, rows, columns, es.length, rps.2, s.st.colInd, s.st.val⟩

/-- `Coo_to_Csbr(Csbr2*, Coo3*, …)` — csbr.2.h:83-182. -/
def cooToCsbr2 (M : Nat) (es : List (Element T)) (rows columns : Nat)
    (offR : List Nat) (blockrows : Nat) (offC : List Nat) (blockcols : Nat) :
    C (Csbr2 T × List (Element T)) := do
  let es ← calculateBlockId M es offR blockrows offC blockcols
  let es := sortElementsBlocks es
  let A ← csbr2Build M es rows columns offR blockrows offC blockcols
  .ok (A, es)

/-- `Coo_to_Csbr(Csbr2*, COO*, br_size, bc_size)` — csbr.2.h:189-193 through generic/gsb.h:16-42. -/
def cooToCsbr2Const (M : Nat) (es : List (Element T)) (rows columns : Nat) (brSize bcSize : Nat) :
    C (Csbr2 T × List (Element T)) := do
  let r ← constOffsets M rows brSize
  let c ← constOffsets M columns bcSize
  cooToCsbr2 M es rows columns r.2 r.1 c.2 c.1

/-- One block-row of `Csbr2::spmv` — csbr.2.h:60-76. -/
def Csbr2.spmvRow [Add T] [Mul T] (M : Nat) (A : Csbr2 T) (x : Buf T) (bi : Nat) (y : Buf T) :
    C (Buf T) := do
  let yo ← rd A.offR bi
  let ye ← rd A.offR (addM M bi 1)
  let lo ← A.blockrowPtr.get bi
  let hi ← A.blockrowPtr.get (bi + 1)
  forLoop lo hi y fun k y => do
    let rp ← A.rowPtr.get k
    spmvCsrSerial rp A.colInd A.val 0 (subM M ye yo) x 0 y yo

/-- `Csbr2::spmv` — csbr.2.h:56-77, block-rows in order. -/
def Csbr2.spmv [Add T] [Mul T] (M : Nat) (A : Csbr2 T) (x y : Buf T) : C (Buf T) :=
  forLoop 0 A.blockrows y (Csbr2.spmvRow M A x)

/-! ### Csbr3 -/

/-- `Csbr3<T,IT,SIT>` — csbr.3.h:14-53.  `balanced` and `partition` are never set by the
constructor. -/
structure Csbr3 (T : Type) where
  blockPtr : Buf Nat
  blockcolInd : Buf Nat
  blockrowPtr : Buf Nat
  blockrows : Nat
  blockcols : Nat
  nnzblocks : Nat
  blockSize : Nat
  rows : Nat
  columns : Nat
  nnz : Nat
  rowInd : Buf Nat
  colInd : Buf Nat
  val : Buf T

/-- The state of the copying loop of the Csbr3 constructor. -/
structure Csbr3Fill (T : Type) where
  cur : Option Cur
  blockPtr : Buf Nat
  blockcolInd : Buf Nat
  blockrowPtr : Buf Nat
  rowInd : Buf Nat
  colInd : Buf Nat
  val : Buf T

/-- Start of a new block — csbr.3.h:98-109. -/
def csbr3NewBlock (M bs blockcols : Nat) (i bi b : Nat) (s : Csbr3Fill T) : C (Csbr3Fill T) := do
  let br ← cdiv b blockcols
  let bc ← cmod b blockcols
  let bp ← s.blockPtr.put bi i
  let bci ← s.blockcolInd.put bi bc
  let brp ← incr M s.blockrowPtr (addM M br 1)
  let cur : Cur := ⟨mulM M br bs, mulM M bc bs, bs, bs⟩
  .ok { s with cur := some cur, blockPtr := bp, blockcolInd := bci, blockrowPtr := brp }

/-- One element — csbr.3.h:112-120.  `S` is the number of values of the small index type. -/
def csbr3Element (M S : Nat) (es : List (Element T)) (i _bi : Nat) (s : Csbr3Fill T) : C (Csbr3Fill T) := do
  let e ← rd es i
  let c ← needCur s.cur
  assertInBlock M c e.row e.col
  let ri ← s.rowInd.put i (subM M e.row c.brOff % S)
  let ci ← s.colInd.put i (subM M e.col c.bcOff % S)
  let v ← s.val.put i e.val
  .ok { s with rowInd := ri, colInd := ci, val := v }

/-- `Coo_to_Csbr(Csbr3*, Coo3*, block_size)` — csbr.3.h:58-128; `Coo_to_Blocked` (130-136) asserts
equal sizes and calls it. -/
def cooToCsbr3 (M S : Nat) (es : List (Element T)) (rows columns bs : Nat) :
    C (Csbr3 T × List (Element T)) := do
  let blockrows ← cdiv (subM M (addM M rows bs) 1) bs
  let blockcols ← cdiv (subM M (addM M columns bs) 1) bs
  let es ← calculateBlockIdConst M es bs bs blockcols
  let es := sortElementsBlocks es
  let n ← countBlocks M es
  let bp : Buf Nat := Buf.uninit (addM M n 1)
  let bp ← bp.put n es.length
  let init : Csbr3Fill T := ⟨none, bp, Buf.uninit n, Buf.filled (addM M blockrows 1) 0,
    Buf.uninit es.length, Buf.uninit es.length, Buf.uninit es.length⟩
  let s ← forLoop 0 es.length (⟨M - 1, M - 1, init⟩ : Scan (Csbr3Fill T))
    (scanStep M (elemBlock es) (csbr3NewBlock M bs blockcols) (csbr3Element M S es))
  let brp ← prefixSum M s.st.blockrowPtr blockrows
  let t ← brp.get blockrows
  cassert (t == n)
  .ok (⟨s.st.blockPtr, s.st.blockcolInd, brp, blockrows, blockcols, n, bs, rows, columns, es.length,
    s.st.rowInd, s.st.colInd, s.st.val⟩, es)

/-- One block-row of `spmv_balanced(Csbr3*)` — spmv/omp/csbr.3.h:19-42. -/
def Csbr3.spmvRow [Add T] [Mul T] (M : Nat) (A : Csbr3 T) (x : Buf T) (bi : Nat) (y : Buf T) :
    C (Buf T) := do
  let lo ← A.blockrowPtr.get bi
  let hi ← A.blockrowPtr.get (bi + 1)
  forLoop lo hi y fun k y => do
    let c ← A.blockcolInd.get k
    let s ← A.blockPtr.get k
    let e ← A.blockPtr.get (k + 1)
    spmvCoo A.val A.rowInd A.colInd s (subM M e s) x (mulM M c A.blockSize) y (mulM M bi A.blockSize)

/-- `spmv_balanced(Csbr3*)` — spmv/omp/csbr.3.h:11-43, block-rows in order. -/
def Csbr3.spmvBalanced [Add T] [Mul T] (M : Nat) (A : Csbr3 T) (x y : Buf T) : C (Buf T) :=
  forLoop 0 A.blockrows y (Csbr3.spmvRow M A x)

/-! ### The kernels as programs over shared memory -/

/-- `block(k)->spmv(x + xo, y)` of a `Csbr` — csbr.h:48-51, csr.1.h:26-29. -/
def Csbr.code [Add T] [Mul T] (A : Csbr T) : BlockCode T := fun k x xo b yo =>
  Prog.read (A.blocks.get k) fun blk =>
  csrP blk.rowPtr A.colInd A.val blk.base blk.rows x xo b yo

/-- `Csbr::spmv` — csbr.h:76-79. -/
def Csbr.spmvP [Add T] [Mul T] [Zero T] (M : Nat) (A : Csbr T) (x : Buf T) (b : Nat) : Prog T :=
  spmvBlockedP M A.toBlockMat A.code true A.partition x b

/-- One block-row of `Csbr2::spmv` — csbr.2.h:60-76. -/
def csbr2RowP [Add T] [Mul T] (M : Nat) (A : Csbr2 T) (x : Buf T) (b : Nat) (bi : Nat) : Prog T :=
  Prog.read (rd A.offR bi) fun yo =>
  Prog.read (rd A.offR (addM M bi 1)) fun ye =>
  Prog.read (A.blockrowPtr.get bi) fun lo =>
  Prog.read (A.blockrowPtr.get (bi + 1)) fun hi =>
  Prog.seqFor lo hi fun k =>
  Prog.read (A.rowPtr.get k) fun rp =>
  csrSerialP rp A.colInd A.val 0 (subM M ye yo) x 0 b yo

/-- `Csbr2::spmv` — csbr.2.h:56-77. -/
def Csbr2.spmvP [Add T] [Mul T] (M : Nat) (A : Csbr2 T) (x : Buf T) (b : Nat) : Prog T :=
  Prog.parFor 0 A.blockrows (csbr2RowP M A x b)

/-- One block-row of `spmv_balanced(Csbr3*)` — spmv/omp/csbr.3.h:19-42. -/
def csbr3RowP [Add T] [Mul T] (M : Nat) (A : Csbr3 T) (x : Buf T) (b : Nat) (bi : Nat) : Prog T :=
  Prog.read (A.blockrowPtr.get bi) fun lo =>
  Prog.read (A.blockrowPtr.get (bi + 1)) fun hi =>
  Prog.seqFor lo hi fun k =>
  Prog.read (A.blockcolInd.get k) fun c =>
  Prog.read (A.blockPtr.get k) fun s =>
  Prog.read (A.blockPtr.get (k + 1)) fun e =>
  cooP A.val A.rowInd A.colInd s (subM M e s) x (mulM M c A.blockSize) b (mulM M bi A.blockSize)

/-- `spmv_balanced(Csbr3*)` — spmv/omp/csbr.3.h:11-43. -/
def Csbr3.spmvP [Add T] [Mul T] (M : Nat) (A : Csbr3 T) (x : Buf T) (b : Nat) : Prog T :=
  Prog.parFor 0 A.blockrows (csbr3RowP M A x b)

end Gsb
