import Verif.Model.IoBlocked
import Verif.Model.Broken
/-
`read_bin_blocked(Bcsr*, …)` — include/io/blocked.h:277-359 — and what is done with its result:
`block_nonzeros` and `release` of include/matrix/bcsr.h.
-/
namespace Gsb
variable {T : Type}

/-- The variables of the reader: the block's offsets and the arrays it fills. -/
structure BcsrRead (T : Type) where
  cur : Option Cur
  blkRowPtr : Buf (Buf Nat)
  colInd : Buf Nat
  val : Buf T

/-- "CSR block initialize" — blocked.h:325-337.  A failing `calloc` is not modelled; of the block's members only
`row_ptr` is assigned. -/
def bcsrNewBlockIo (M : Nat) (offR offC : List Nat) (blockcols : Nat) (_i _bi b : Nat) (s : BcsrRead T) :
    C (BcsrRead T) := do
  let c ← blockCoordsIo M offR offC blockcols b
  let rps ← s.blkRowPtr.put b (Buf.filled (addM M c.2.2.brSize 1) 0)
  .ok { s with cur := some c.2.2, blkRowPtr := rps }

/-- An element — blocked.h:340-346; the block is indexed by its id. -/
def bcsrElementIo (M : Nat) (e : Element T) (i _bi : Nat) (s : BcsrRead T) : C (BcsrRead T) := do
  let c ← needCur s.cur
  assertInBlockIo M c e.row e.col
  let rp ← s.blkRowPtr.get e.block
  let rp ← incr M rp (addM M (subM M e.row c.brOff) 1)
  let rps ← s.blkRowPtr.put e.block rp
  let ci ← s.colInd.put i (subM M e.col c.bcOff)
  let v ← s.val.put i e.val
  .ok { s with blkRowPtr := rps, colInd := ci, val := v }

/-- "Mark all blocks as having 0 rows" — blocked.h:304-307. -/
def bcsrClearIo (g : Nat) (blkRows : Buf Nat) : C (Buf Nat) := forLoop 0 g blkRows fun i r => r.put i 0

/-- "Get row pointers from row non-zero counters" — blocked.h:354-358. -/
def bcsrAccumulateIo (M : Nat) (nnzblocks : Nat) (blkRows : Buf Nat) (blkRowPtr : Buf (Buf Nat)) : C (Buf (Buf Nat)) :=
  forLoop 0 nnzblocks blkRowPtr fun bi rps => do
    let r ← blkRows.get bi
    if r = 0 then .ok rps
    else do
      let rp ← rps.get bi
      let rp ← prefixSum M rp r
      rps.put bi rp

/-- `read_bin_blocked(Bcsr*, …)` — blocked.h:277-359.  The counter of blocks kept by `blockedLoop` does not exist
here and is not used. -/
def readBlockedBcsr (w : Nat) (cv : Codec T) (fs : FS) (name : String) (offR : List Nat) (blockrows : Nat)
    (offC : List Nat) (blockcols : Nat) : C (Option (Int × Option (Bcsr T))) := do
  let h ← readBlockedCommon w fs name offR blockrows offC blockcols
  match h with
  | none => .ok none
  | some (h, f) => do
    let g := mulM (256 ^ w) blockrows blockcols
    let rs ← bcsrClearIo g (Buf.uninit g)
    let s ← blockedLoop w cv (bcsrNewBlockIo (256 ^ w) offR offC blockcols) (bcsrElementIo (256 ^ w)) h.nnz f
      (⟨none, Buf.uninit g, Buf.uninit h.nnz, Buf.uninit h.nnz⟩ : BcsrRead T)
    if s.1 ≠ 0 then .ok (some (s.1, none))
    else do
      let st := s.2.2.st
      let rps ← bcsrAccumulateIo (256 ^ w) h.nnzblocks rs st.blkRowPtr
      .ok (some (0, some ⟨rs, Buf.uninit g, rps, offR, offC, blockrows, blockcols, h.nnzblocks, h.rows, h.columns,
        h.nnz, st.colInd, st.val⟩))

/-- `block_nonzeros(i)` — bcsr.h:49-52. -/
def Bcsr.blockNonzeros (A : Bcsr T) (b : Nat) : C Nat := do
  let rp ← A.blkRowPtr.get b
  let r ← A.blkRows.get b
  rp.get r

/-- The loop of `release` — bcsr.h:201-204: the blocks whose `row_ptr` is freed. -/
def Bcsr.freedBlocks (M : Nat) (A : Bcsr T) : C (List Nat) :=
  forLoop 0 (mulM M A.blockrows A.blockcols) ([] : List Nat) fun i l => do
    let r ← A.blkRows.get i
    if r > 0 then do
      let _ ← A.blkRowPtr.get i
      .ok (l ++ [i])
    else .ok l

end Gsb
