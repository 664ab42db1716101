import Verif.Model.IoBin
import Verif.Model.Csbr
import Verif.Model.Cgbr
/-
Models of the blocked file format: include/io/output.h (write_bin_blocked) and include/io/blocked.h.
The index type has `w` bytes, so `M = 256 ^ w`.
-/
namespace Gsb
variable {T : Type}

/-! ### Writing -/

/-- One record of the data section — output.h:201-204; counts ignored. -/
def writeRec (w : Nat) (cv : Codec T) (d : Disk) (o : Bytes) (e : Element T) : Bytes :=
  let o := (fwrite1 d (idx w) e.block o).2
  let o := (fwrite1 d (idx w) e.row o).2
  let o := (fwrite1 d (idx w) e.col o).2
  (fwrite1 d cv e.val o).2

/-- `write_bin_blocked(Coo3 A, filename)` — output.h:180-209.  The header members are passed
separately. -/
def writeBinBlocked (w : Nat) (cv : Codec T) (d : Disk) (fs : FS) (name : String)
    (rows columns blockrows blockcols nnzblocks : Nat) (es : List (Element T)) : Int × FS :=
  if d.opens name then
    let o := fwriteEach d (idx w) [rows, columns, es.length, blockrows, blockcols, nnzblocks] []
    (0, fs.set name (d.close (es.foldl (writeRec w cv d) o)))
  else (-1, fs)

/-! ### Reading -/

/-- `k` words read one `fread` each: the sum of the counts, the words, the stream. -/
def readWords (w : Nat) : Nat → In → Nat × List (Option Nat) × In
  | 0, f => (0, [], f)
  | k + 1, f =>
    let r := fread1 (idx w) f none
    let t := readWords w k r.2.2
    (r.1 + t.1, r.2.1 :: t.2.1, t.2.2)

/-- The members a reader takes from the header. -/
structure BlockedHeader where
  rows : Nat
  columns : Nat
  nnz : Nat
  nnzblocks : Nat

/-- `read_bin_blocked_common` — blocked.h:25-58.  `none`: the file cannot be opened and the program
exits. -/
def readBlockedCommon (w : Nat) (fs : FS) (name : String) (offR : List Nat) (blockrows : Nat)
    (offC : List Nat) (blockcols : Nat) : C (Option (BlockedHeader × In)) :=
  match fs name with
  | none => .ok none
  | some data =>
    let r := readWords w 6 ⟨data, 0⟩
    match r.1, r.2.1 with
    | 6, [some rows, some columns, some nnz, some br, some bc, some nb] => do
      cassert (br == blockrows)
      cassert (bc == blockcols)
      let a ← rd offR br
      cassert (a == rows)
      let b ← rd offC bc
      cassert (b == columns)
      .ok (some (⟨rows, columns, nnz, nb⟩, r.2.2))
    | _, _ => .error .assertion

/-- The variables `b, cur_row, cur_col, cur_val` a record is read into; `none`: indeterminate. -/
structure RecVars (T : Type) where
  b : Option Nat
  row : Option Nat
  col : Option Nat
  val : Option T

/-- The four `fread`s of a record — blocked.h:97-100, 199-202, 312-315, 397-400, 404-407 and
431-434: `fr`, the variables, the stream. -/
def readRec (w : Nat) (cv : Codec T) (f : In) (v : RecVars T) : Nat × RecVars T × In :=
  let r1 := fread1 (idx w) f v.b
  let r2 := fread1 (idx w) r1.2.2 v.row
  let r3 := fread1 (idx w) r2.2.2 v.col
  let r4 := fread1 cv r3.2.2 v.val
  (r1.1 + r2.1 + r3.1 + r4.1, ⟨r1.2.1, r2.2.1, r3.2.1, r4.2.1⟩, r4.2.2)

/-- `UINT_MAX` converted to the index type. -/
def uintMax (M : Nat) : Nat := (2 ^ 32 - 1) % M

/-- "Check if this is the begining of a new block" with the assertion on the order, then the element
— blocked.h:107-141, 209-239. -/
def blockedStep {σ : Type} (M : Nat) (newBlock : Nat → Nat → Nat → σ → C σ)
    (element : Element T → Nat → Nat → σ → C σ) (i : Nat) (e : Element T) (s : Scan σ) : C (Scan σ) := do
  let s ← if e.block ≠ s.prevB then do
      cassert (decide (e.block > s.prevB) || s.prevB == uintMax M)
      let bi := addM M s.blockIndex 1
      let st ← newBlock i bi e.block s.st
      .ok (⟨bi, e.block, st⟩ : Scan σ)
    else .ok s
  let st ← element e i s.blockIndex s.st
  .ok { s with st := st }

/-- The data section — blocked.h:92-142, 194-240.  State: the code returned so far (0: none yet), the
stream, the rest.  Once a code is returned the remaining iterations do not happen. -/
def blockedLoop {σ : Type} (w : Nat) (cv : Codec T) (newBlock : Nat → Nat → Nat → σ → C σ)
    (element : Element T → Nat → Nat → σ → C σ) (nnz : Nat) (f : In) (st : σ) : C (Int × In × Scan σ) :=
  forLoop 0 nnz ((0 : Int), f, (⟨uintMax (256 ^ w), uintMax (256 ^ w), st⟩ : Scan σ)) fun i s =>
    if s.1 ≠ 0 then .ok s
    else
      let r := readRec w cv s.2.1 ⟨none, none, none, none⟩
      if r.1 ≠ 4 then .ok (-4, r.2.2, s.2.2)
      else match r.2.1 with
        | ⟨some b, some row, some col, some val⟩ => do
          let sc ← blockedStep (256 ^ w) newBlock element i ⟨row, col, val, b⟩ s.2.2
          .ok (0, r.2.2, sc)
        | _ => .error .uninit

/-- `br, bc` and the block's offsets and height — blocked.h:114-118, 216-220.  The width is not
computed; the member `bcSize` is set to 0 and not used. -/
def blockCoordsIo (M : Nat) (offR offC : List Nat) (blockcols b : Nat) : C (Nat × Nat × Cur) := do
  let br ← cdiv b blockcols
  let bc ← cmod b blockcols
  let brOff ← rd offR br
  let bcOff ← rd offC bc
  let brEnd ← rd offR (addM M br 1)
  .ok (br, bc, ⟨brOff, bcOff, subM M brEnd brOff, 0⟩)

/-- The three assertions on an element — blocked.h:135-137, 233-235. -/
def assertInBlockIo (M : Nat) (c : Cur) (row col : Nat) : C Unit := do
  cassert (decide (c.brOff ≤ row))
  cassert (decide (row < addM M c.brSize c.brOff))
  cassert (decide (c.bcOff ≤ col))

/-- A new block of a `Csbr` — blocked.h:114-132.  A failing `calloc` is not modelled. -/
def csbrNewBlockIo (M : Nat) (offR offC : List Nat) (blockcols : Nat) (i bi b : Nat) (s : CsbrFill T) :
    C (CsbrFill T) := do
  let c ← blockCoordsIo M offR offC blockcols b
  let brp ← incr M s.blockrowPtr (addM M c.1 1)
  let bci ← s.blockcolInd.put bi c.2.1
  let blocks ← s.blocks.put bi ⟨c.2.2.brSize, i, Buf.filled (addM M c.2.2.brSize 1) 0⟩
  .ok { s with cur := some c.2.2, blockrowPtr := brp, blockcolInd := bci, blocks := blocks }

/-- An element of a `Csbr` — blocked.h:135-141. -/
def csbrElementIo (M : Nat) (e : Element T) (i bi : Nat) (s : CsbrFill T) : C (CsbrFill T) := do
  let c ← needCur s.cur
  assertInBlockIo M c e.row e.col
  let blk ← s.blocks.get bi
  let rp ← incr M blk.rowPtr (addM M (subM M e.row c.brOff) 1)
  let blocks ← s.blocks.put bi { blk with rowPtr := rp }
  let ci ← s.colInd.put i (subM M e.col c.bcOff)
  let v ← s.val.put i e.val
  .ok { s with blocks := blocks, colInd := ci, val := v }

/-- `read_bin_blocked(Csbr*, …)` — blocked.h:63-161.  The code and, when it is 0, the matrix; its
member `partition` is never set (and not used, `balanced` being initialised to true): the empty list. -/
def readBlockedCsbr (w : Nat) (cv : Codec T) (fs : FS) (name : String) (offR : List Nat) (blockrows : Nat)
    (offC : List Nat) (blockcols : Nat) : C (Option (Int × Option (Csbr T))) := do
  let h ← readBlockedCommon w fs name offR blockrows offC blockcols
  match h with
  | none => .ok none
  | some (h, f) => do
    let init : CsbrFill T := ⟨none, Buf.filled (addM (256 ^ w) blockrows 1) 0, Buf.uninit h.nnzblocks,
      Buf.uninit h.nnzblocks, Buf.uninit h.nnz, Buf.uninit h.nnz⟩
    let s ← blockedLoop w cv (csbrNewBlockIo (256 ^ w) offR offC blockcols) (csbrElementIo (256 ^ w)) h.nnz f init
    if s.1 ≠ 0 then .ok (some (s.1, none))
    else do
      let st := s.2.2.st
      let blocks ← accumulateBlocks (256 ^ w) h.nnzblocks st.blocks
      let brp ← prefixSum (256 ^ w) st.blockrowPtr blockrows
      let t ← brp.get blockrows
      cassert (t == h.nnzblocks)
      .ok (some (0, some ⟨blocks, brp, st.blockcolInd, offR, offC, blockrows, blockcols, h.nnzblocks, [], h.rows,
        h.columns, h.nnz, st.colInd, st.val⟩))

/-- A new block of a `Csbr2` — blocked.h:216-230. -/
def csbr2NewBlockIo (M : Nat) (offR offC : List Nat) (blockcols : Nat) (_i bi b : Nat) (s : Csbr2Fill T) :
    C (Csbr2Fill T) := do
  let c ← blockCoordsIo M offR offC blockcols b
  let brp ← incr M s.blockrowPtr (addM M c.1 1)
  let rps ← s.rowPtr.put bi (Buf.filled (addM M c.2.2.brSize 1) 0)
  .ok { s with cur := some c.2.2, blockrowPtr := brp, rowPtr := rps }

/-- An element of a `Csbr2` — blocked.h:233-239. -/
def csbr2ElementIo (M : Nat) (e : Element T) (i bi : Nat) (s : Csbr2Fill T) : C (Csbr2Fill T) := do
  let c ← needCur s.cur
  assertInBlockIo M c e.row e.col
  let rp ← s.rowPtr.get bi
  let rp ← incr M rp (addM M (subM M e.row c.brOff) 1)
  let rps ← s.rowPtr.put bi rp
  let ci ← s.colInd.put i e.col
  let v ← s.val.put i e.val
  .ok { s with rowPtr := rps, colInd := ci, val := v }

/-- `read_bin_blocked(Csbr2*, …)` — blocked.h:166-272. -/
def readBlockedCsbr2 (w : Nat) (cv : Codec T) (fs : FS) (name : String) (offR : List Nat) (blockrows : Nat)
    (offC : List Nat) (blockcols : Nat) : C (Option (Int × Option (Csbr2 T))) := do
  let h ← readBlockedCommon w fs name offR blockrows offC blockcols
  match h with
  | none => .ok none
  | some (h, f) => do
    let init : Csbr2Fill T := ⟨none, Buf.filled (addM (256 ^ w) blockrows 1) 0, Buf.uninit h.nnzblocks,
      Buf.uninit h.nnz, Buf.uninit h.nnz⟩
    let s ← blockedLoop w cv (csbr2NewBlockIo (256 ^ w) offR offC blockcols) (csbr2ElementIo (256 ^ w)) h.nnz f init
    if s.1 ≠ 0 then .ok (some (s.1, none))
    else do
      let st := s.2.2.st
      let brp ← prefixSum (256 ^ w) st.blockrowPtr blockrows
      let t ← brp.get blockrows
      cassert (t == h.nnzblocks)
      let rps ← accumulateCsbr2 (256 ^ w) offR blockrows brp st.rowPtr
      .ok (some (0, some ⟨brp, offR, offC, blockrows, blockcols, h.nnzblocks, h.rows, h.columns, h.nnz, rps.2,
        st.colInd, st.val⟩))

/-! ### Cgbr -/

/-- The variables of the `Cgbr` reader's loop. -/
structure CgbrRead (T : Type) where
  f : In
  vars : RecVars T
  prevB : Option Nat
  blockStart : Nat
  blockIndex : Nat
  blockrowPtr : Buf Nat
  blockcolInd : Buf Nat
  blocks : Buf (MatrixBlock T)
  typeBlocks : Buf Nat
  typeNnz : Buf Nat

/-- "Read new block in memory" — blocked.h:430-445.  The counts are ignored; a member left
indeterminate is an error here (the code would use block, row and col at once, val later). -/
def readBlockElems (w : Nat) (cv : Codec T) (c : Cur) (prevB n : Nat) (f : In) : C (List (Element T) × In) :=
  forLoop 0 n (([] : List (Element T)), f) fun _ s =>
    let r := readRec w cv s.2 ⟨none, none, none, none⟩
    match r.2.1 with
    | ⟨some b, some row, some col, some val⟩ => do
      cassert (b == prevB)
      assertInBlock (256 ^ w) c row col
      .ok (s.1 ++ [⟨subM (256 ^ w) row c.brOff, subM (256 ^ w) col c.bcOff, val, b⟩], r.2.2)
    | _ => .error .uninit

/-- The body of the `if` — blocked.h:411-457.  `fr` is the count of the record just read, `b` its
block. -/
def cgbrFlush [Zero T] (w S : Nat) (cv : Codec T) (choose : Nat → Nat → Nat → BlockChoice) (offR offC : List Nat)
    (blockcols i fr b prevB : Nat) (s : CgbrRead T) : C (CgbrRead T) := do
  let c ← blockCoords (256 ^ w) offR offC blockcols prevB
  let brp ← incr (256 ^ w) s.blockrowPtr (addM (256 ^ w) c.1 1)
  let bci ← s.blockcolInd.put s.blockIndex c.2.1
  let n := subM (256 ^ w) i s.blockStart
  let f := if fr = 4 then s.f.back (addM (256 ^ w) n 1 * (3 * w + cv.size)) else s.f.back (n * (3 * w + cv.size))
  let g ← readBlockElems w cv c.2.2 prevB n f
  let r ← cooToMatrixBlock (256 ^ w) S choose c.2.2.brSize c.2.2.bcSize g.1
  let blocks ← s.blocks.put s.blockIndex r.2.1
  let tb ← incr (256 ^ w) s.typeBlocks r.1
  let a ← s.typeNnz.get r.1
  let tn ← s.typeNnz.put r.1 (addM (256 ^ w) a n)
  .ok ⟨g.2.forward (3 * w + cv.size), s.vars, some b, i, addM (256 ^ w) s.blockIndex 1, brp, bci, blocks, tb, tn⟩

/-- One iteration of the data section — blocked.h:403-458.  Comparing an indeterminate `b` or
`prev_b` is an error. -/
def cgbrReadStep [Zero T] (w S : Nat) (cv : Codec T) (choose : Nat → Nat → Nat → BlockChoice) (offR offC : List Nat)
    (blockcols i : Nat) (s : CgbrRead T) : C (CgbrRead T) :=
  let r := readRec w cv s.f s.vars
  let s := { s with f := r.2.2, vars := r.2.1 }
  match r.2.1.b, s.prevB with
  | some b, some prevB =>
    if b ≠ prevB ∨ r.1 = 0 then cgbrFlush w S cv choose offR offC blockcols i r.1 b prevB s else .ok s
  | _, _ => .error .uninit

/-- `read_bin_blocked(Cgbr*, …)` — blocked.h:366-473.  The member `balanced` is never assigned:
`balanced` is whatever it holds.  `MATRIX_TYPE_NUM` is 6. -/
def readBlockedCgbr [Add T] [Mul T] [Zero T] (w S workers : Nat) (cv : Codec T) (choose : Nat → Nat → Nat → BlockChoice)
    (balanced : Bool) (fs : FS) (name : String) (offR : List Nat) (blockrows : Nat) (offC : List Nat)
    (blockcols : Nat) : C (Option (Int × Cgbr T)) := do
  let h ← readBlockedCommon w fs name offR blockrows offC blockcols
  match h with
  | none => .ok none
  | some (h, f) => do
    let r := readRec w cv f ⟨none, none, none, none⟩
    let init : CgbrRead T := ⟨r.2.2, ⟨none, r.2.1.row, r.2.1.col, r.2.1.val⟩, r.2.1.b, 0, 0,
      Buf.filled (addM (256 ^ w) blockrows 1) 0, Buf.uninit h.nnzblocks, Buf.uninit h.nnzblocks, Buf.filled 6 0,
      Buf.filled 6 0⟩
    let s ← forLoop 0 h.nnz init (cgbrReadStep w S cv choose offR offC blockcols)
    let brp ← prefixSum (256 ^ w) s.blockrowPtr blockrows
    let t ← brp.get blockrows
    cassert (t == h.nnzblocks)
    let A : Gbr (MatrixBlock T) := ⟨s.blocks, brp, s.blockcolInd, s.typeBlocks, s.typeNnz, offR, offC, blockrows,
      blockcols, h.nnzblocks, h.rows, h.columns, h.nnz⟩
    let p ← partitionInit (256 ^ w) workers (Cgbr.toBlockMat (256 ^ w) A)
    .ok (some (0, ⟨A, balanced, p⟩))

end Gsb
