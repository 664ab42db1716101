import Verif.Model.Csbr
/-
Two constructors that cannot run: `Coo_to_Bcsr` (include/matrix/bcsr.h) and `Coo_to_Csbr` from a Coo2
(include/matrix/csbr.h:88-189), which relies on `sort_triplets_blocks` (include/utils.h:220-262).
-/
namespace Gsb
variable {T : Type}

/-! ### BCSR -/

/-- Reading a local variable that may not have been assigned. -/
def needVar (v : Option Nat) : C Nat :=
  match v with
  | some v => .ok v
  | none => .error .uninit

/-- `Bcsr<T,IT>` — bcsr.h:20-43.  A block is a `Csr`: its `rows`, the start of its part of the value and column
arrays, and its row pointers; each is a separate array here so that a block may be only partly written. -/
structure Bcsr (T : Type) where
  blkRows : Buf Nat
  blkBase : Buf Nat
  blkRowPtr : Buf (Buf Nat)
  offR : List Nat
  offC : List Nat
  blockrows : Nat
  blockcols : Nat
  nnzblocks : Nat
  rows : Nat
  columns : Nat
  nnz : Nat
  colInd : Buf Nat
  val : Buf T

/-- The variables of the constructor: `b`, `prev_b`, the block's offsets and the matrix under construction. -/
structure BcsrFill (T : Type) where
  b : Option Nat
  prevB : Nat
  cur : Option Cur
  A : Bcsr T

/-- "Mark all blocks as having 0 rows" — bcsr.h:119-122: the loop counter is `i` but the index used is `b`. -/
def bcsrClear (M : Nat) (blockrows blockcols : Nat) (b : Option Nat) (blkRows : Buf Nat) : C (Buf Nat) :=
  forLoop 0 (mulM M blockrows blockcols) blkRows fun _ r => do
    let b ← needVar b
    r.put b 0

/-- One iteration of the copying loop — bcsr.h:126-157. -/
def bcsrStep (M : Nat) (es : List (Element T)) (i : Nat) (s : BcsrFill T) : C (BcsrFill T) := do
  let e ← rd es i
  let b := e.block
  let s : BcsrFill T := { s with b := some b }
  let s ← if b ≠ s.prevB then do
      let c ← blockCoords M s.A.offR s.A.offC s.A.blockcols b
      let rs ← s.A.blkRows.put b c.2.2.brSize
      let bs ← s.A.blkBase.put b i
      let rp ← s.A.blkRowPtr.put b (Buf.filled (addM M c.2.2.brSize 1) 0)
      .ok ({ s with prevB := b, cur := some c.2.2, A := { s.A with blkRows := rs, blkBase := bs, blkRowPtr := rp } } : BcsrFill T)
    else .ok s
  let c ← needCur s.cur
  assertInBlock M c e.row e.col
  let rp ← s.A.blkRowPtr.get b
  let rp ← incr M rp (addM M (subM M e.row c.brOff) 1)
  let rps ← s.A.blkRowPtr.put b rp
  let ci ← s.A.colInd.put i (subM M e.col c.bcOff)
  let v ← s.A.val.put i e.val
  .ok { s with A := { s.A with blkRowPtr := rps, colInd := ci, val := v } }

/-- `Coo_to_Bcsr(A, B, blockrow_offset, blockrows, blockcol_offset, blockcols)` — bcsr.h:79-165.  `b` starts
unassigned (bcsr.h:86): `b0` is `none` if reading it is an error, as the C++ standard has it, and `some v` if the
machine finds the value `v` there. -/
def cooToBcsr (M : Nat) (b0 : Option Nat) (es : List (Element T)) (rows columns : Nat)
    (offR : List Nat) (blockrows : Nat) (offC : List Nat) (blockcols : Nat) : C (Bcsr T × List (Element T)) := do
  let es ← calculateBlockId M es offR blockrows offC blockcols
  let es := sortElementsBlocks es
  let n ← countBlocks M es
  checkPartition offR blockrows rows offC blockcols columns
  let g := mulM M blockrows blockcols
  let rs ← bcsrClear M blockrows blockcols b0 (Buf.uninit g)
  let A : Bcsr T := ⟨rs, Buf.uninit g, Buf.uninit g, offR, offC, blockrows, blockcols, n, rows, columns, es.length,
    Buf.uninit es.length, Buf.uninit es.length⟩
  let s ← forLoop 0 es.length (⟨b0, M - 1, none, A⟩ : BcsrFill T) (bcsrStep M es)
  let rps ← forLoop 0 n s.A.blkRowPtr fun bi rps => do
    let r ← s.A.blkRows.get bi
    if r = 0 then .ok rps
    else do
      let rp ← rps.get bi
      let rp ← prefixSum M rp r
      rps.put bi rp
  .ok ({ s.A with blkRowPtr := rps }, es)

/-! ### `sort_triplets_blocks` -/

/-- `row_compare` — utils.h:236-238. -/
def ltRow (a b : Triplet T) : Bool := decide (a.row < b.row)

/-- "Locate start of each blockrow" — utils.h:244-252.  State: `i` and the array `brow_ptr`.  The inner loop reads
`array[i]` without comparing `i` to `size`.  `after` is what the program finds in memory behind the array, as if it were
more of the array: `[]` if reading there is an error, as the C++ standard has it.  One round more than there are
triplets is enough to leave the loop or all that can be read. -/
def locateBlockrows (M : Nat) (ts after : List (Triplet T)) (offR : List Nat) (blockrows : Nat) : C (Buf Nat) := do
  let brp : Buf Nat := Buf.uninit (addM M blockrows 1)
  let brp ← brp.put 0 0
  let s ← forLoop 0 blockrows (0, brp) fun br s => do
    let i ← whileLoop (fun i => do
        let t ← rd (ts ++ after) i
        let o ← rd offR (br + 1)
        .ok (decide (t.row < o))) (fun i => .ok (addM M i 1)) ((ts ++ after).length + 1) s.1
    let brp ← s.2.put (br + 1) i
    .ok (i, brp)
  s.2.put blockrows ts.length

/-- `sort_triplets_blocks` — utils.h:220-262.  `stdSort lo hi ts` is `std::sort(array + lo, array + hi, block_compare)`:
any function at all. -/
def sortTripletsBlocks (M : Nat) (stdSort : Nat → Nat → List (Triplet T) → C (List (Triplet T)))
    (ts after : List (Triplet T)) (offR : List Nat) (blockrows : Nat) : C (List (Triplet T)) := do
  let ts := pssSort ltRow ts
  let brp ← locateBlockrows M ts after offR blockrows
  forLoop 0 blockrows ts fun b ts => do
    let lo ← brp.get b
    let hi ← brp.get (b + 1)
    stdSort lo hi ts

/-! ### `Coo_to_Csbr` from a Coo2 -/

/-- "Count non-zeros of each block" — csbr.h:119-128. -/
def coo2Count (M : Nat) (ts : List (Triplet T)) (offR : List Nat) (blockrows : Nat) (offC : List Nat) (blockcols : Nat) :
    C (Buf Nat) :=
  forLoop 0 ts.length (Buf.filled (mulM M blockrows blockcols) 0) fun i counter => do
    let t ← rd ts i
    let br ← indexToBlockindex M offR blockrows t.row
    let bc ← indexToBlockindex M offC blockcols t.col
    incr M counter (addM M (mulM M br blockcols) bc)

/-- "Count non-zero blocks, calculate block row pointers" — csbr.h:135-146.  State: `nnz_blocks` and `blockrow_ptr`. -/
def coo2BlockrowPtr (M : Nat) (counter : Buf Nat) (blockrows blockcols : Nat) : C (Nat × Buf Nat) := do
  let brp : Buf Nat := Buf.uninit (addM M blockrows 1)
  let brp ← brp.put 0 0
  forLoop 0 blockrows (0, brp) fun i s => do
    let n ← forLoop 0 blockcols s.1 fun j n => do
      let c ← counter.get (addM M (mulM M i blockcols) j)
      .ok (if c > 0 then addM M n 1 else n)
    let brp ← s.2.put (i + 1) n
    .ok (n, brp)

/-- The variables of the main loop: `B->triplets`, `block_index`, `val_index` and the arrays of the matrix. -/
structure Coo2Fill (T : Type) where
  ts : List (Triplet T)
  blockIndex : Nat
  valIndex : Nat
  blockcolInd : Buf Nat
  blocks : Buf CsbrBlock
  colInd : Buf Nat
  val : Buf T

/-- Assignment to an element of the array of triplets. -/
def wr (ts : List (Triplet T)) (i : Nat) (t : Triplet T) : C (List (Triplet T)) :=
  if i < ts.length then .ok (ts.set i t) else .error .oob

/-- "Calculate new row and column indexes" — csbr.h:166-170: the triplets themselves are changed. -/
def coo2Local (M : Nat) (brOff bcOff vi n : Nat) (ts : List (Triplet T)) : C (List (Triplet T)) :=
  forLoop 0 n ts fun k ts => do
    let t ← rd ts (addM M vi k)
    wr ts (addM M vi k) ⟨subM M t.row brOff, subM M t.col bcOff, t.val⟩

/-- `Coo_to_Csr(A->blocks + block_index, B->triplets + val_index, br_size, bc_size, block_nnz, false, false)` —
csr.1.h:73-104 as called in csbr.h:172-179: sorts the block's part of the triplets in place and writes to the block's part
of the matrix's arrays.  Returns the triplets, `col_ind`, `val` and the block's `row_ptr`. -/
def coo2Csr (M : Nat) (vi n brSize : Nat) (ts : List (Triplet T)) (colInd : Buf Nat) (val : Buf T) :
    C (List (Triplet T) × Buf Nat × Buf T × Buf Nat) :=
  if ts.length < vi + n then .error .oob
  else do
    let part := sortTriplets ((ts.drop vi).take n)
    let s ← forLoop 0 n (colInd, val, (Buf.filled (addM M brSize 1) 0 : Buf Nat)) fun k s => do
      let e ← rd part k
      let ci ← s.1.put (vi + k) e.col
      let v ← s.2.1.put (vi + k) e.val
      let rp ← incr M s.2.2 (addM M e.row 1)
      .ok (ci, v, rp)
    let rp ← prefixSum M s.2.2 brSize
    let t ← rp.get brSize
    cassert (t == n)
    .ok (ts.take vi ++ part ++ ts.drop (vi + n), s.1, s.2.1, rp)

/-- One block of the grid — csbr.h:157-184. -/
def coo2Block (M : Nat) (offC : List Nat) (blockcols : Nat) (counter : Buf Nat) (i brOff brSize j : Nat) (s : Coo2Fill T) :
    C (Coo2Fill T) := do
  let n ← counter.get (addM M (mulM M i blockcols) j)
  if n > 0 then do
    let bcOff ← rd offC j
    let _ ← rd offC (j + 1)
    let bci ← s.blockcolInd.put s.blockIndex j
    let ts ← coo2Local M brOff bcOff s.valIndex n s.ts
    let r ← coo2Csr M s.valIndex n brSize ts s.colInd s.val
    let blocks ← s.blocks.put s.blockIndex ⟨brSize, s.valIndex, r.2.2.2⟩
    .ok ⟨r.1, addM M s.blockIndex 1, addM M s.valIndex n, bci, blocks, r.2.1, r.2.2.1⟩
  else .ok s

/-- `Coo_to_Csbr(Csbr*, Coo2*, …)` — csbr.h:88-189.  Also returns `B->triplets` as the call leaves it. -/
def cooToCsbrCoo2 [Add T] [Mul T] (M workers : Nat) (stdSort : Nat → Nat → List (Triplet T) → C (List (Triplet T)))
    (ts after : List (Triplet T)) (rows columns : Nat)
    (offR : List Nat) (blockrows : Nat) (offC : List Nat) (blockcols : Nat) : C (Csbr T × List (Triplet T)) := do
  checkPartition offR blockrows rows offC blockcols columns
  let ts ← sortTripletsBlocks M stdSort ts after offR blockrows
  let counter ← coo2Count M ts offR blockrows offC blockcols
  let p ← coo2BlockrowPtr M counter blockrows blockcols
  let s ← forLoop 0 blockrows (⟨ts, 0, 0, Buf.uninit p.1, Buf.uninit p.1, Buf.uninit ts.length, Buf.uninit ts.length⟩ : Coo2Fill T)
    fun i s => do
      let brOff ← rd offR i
      let brEnd ← rd offR (i + 1)
      forLoop 0 blockcols s (coo2Block M offC blockcols counter i brOff (subM M brEnd brOff))
  let A : Csbr T := ⟨s.blocks, p.2, s.blockcolInd, offR, offC, blockrows, blockcols, p.1, [], rows, columns, ts.length,
    s.colInd, s.val⟩
  let q ← partitionInit M workers A.toBlockMat
  .ok ({ A with partition := q }, s.ts)

end Gsb
