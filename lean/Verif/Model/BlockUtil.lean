import Verif.Model.Types
/-
Models of the block helpers of include/utils.h and of the constant-size offset construction
(include/generic/gsb.h:16-42, include/matrix/csbr.h:307-337).
Offset arrays are given as lists: `rd off i` is `offset[i]`.
-/
namespace Gsb
variable {T : Type}

/-- `std::upper_bound(offset + first, offset + first + len, v)` as an index: the halving search of
the C++ standard library. -/
def upperBound (off : List Nat) (v first len : Nat) : C Nat :=
  if h : len = 0 then .ok first
  else do
    let m ← rd off (first + len / 2)
    if v < m then upperBound off v first (len / 2)
    else upperBound off v (first + len / 2 + 1) (len - len / 2 - 1)
  termination_by len
  decreasing_by all_goals omega

/-- `index_to_blockindex(offset, size, index)` — include/utils.h:113-118. -/
def indexToBlockindex (M : Nat) (off : List Nat) (size index : Nat) : C Nat := do
  let ub ← upperBound off index 0 size
  .ok (subM M ub 1)

/-- `size_to_offset(offsets, sizes, size)` — include/utils.h:124-129 with `std::partial_sum`
(first sum is a copy, then `acc = acc + sizes[i]`). -/
def sizeToOffset (M : Nat) (sizes : List Nat) : List Nat :=
  match sizes with
  | [] => [0]
  | s :: t => 0 :: s :: (go s t)
where
  /-- the running sum of `std::partial_sum` -/
  go (acc : Nat) : List Nat → List Nat
  | [] => []
  | s :: t => addM M acc s :: go (addM M acc s) t

/-- `calculate_block_id(elements, size, blockrow_offset, …)` — include/utils.h:306-316.  Iteration
`i` reads and writes only `elements[i]`. -/
def calculateBlockId (M : Nat) (es : List (Element T)) (offR : List Nat) (blockrows : Nat)
    (offC : List Nat) (blockcols : Nat) : C (List (Element T)) :=
  es.mapM fun e => do
    let br ← indexToBlockindex M offR blockrows e.row
    let bc ← indexToBlockindex M offC blockcols e.col
    .ok { e with block := addM M (mulM M br blockcols) bc }

/-- `calculate_block_id(elements, size, blockrow_size, blockcol_size, blockcols)` —
include/utils.h:318-328. -/
def calculateBlockIdConst (M : Nat) (es : List (Element T)) (brSize bcSize blockcols : Nat) :
    C (List (Element T)) :=
  es.mapM fun e => do
    let br ← cdiv e.row brSize
    let bc ← cdiv e.col bcSize
    .ok { e with block := addM M (mulM M br blockcols) bc }

/-- `count_blocks(array, size)` — include/utils.h:334-350.  State: (count, current). -/
def countBlocks (M : Nat) (es : List (Element T)) : C Nat := do
  let e0 ← rd es 0
  let s ← forLoop 0 es.length (1, e0.block) fun i s => do
    let e ← rd es i
    if e.block > s.2 then .ok (addM M s.1 1, e.block) else .ok s
  .ok s.1

/-- One dimension of the constant block size constructors: the number of blocks and the offsets —
include/generic/gsb.h:20-32 and 34-39, include/matrix/csbr.h:310-332. -/
def constOffsets (M : Nat) (n size : Nat) : C (Nat × List Nat) := do
  let q ← cdiv n size
  let blocks := if q = 0 then 1 else q
  let off : Buf Nat := Buf.uninit (addM M blocks 1)
  let off ← off.put 0 0
  let off ← forLoop 0 (subM M blocks 1) off fun i off => do
    let a ← off.get i
    off.put (i + 1) (addM M a size)
  let off ← off.put blocks n
  let l ← off.toList (addM M blocks 1)
  .ok (blocks, l)

end Gsb
