import Verif.Model.BlockUtil
import Verif.Model.Csr
import Verif.Model.Coo
/-
The loop shared by the CSBR constructors and file readers: walk over block-sorted non-zeros,
starting a new block whenever the block id changes.
-/
namespace Gsb

/-- The variables `block_index` and `prev_b` and the rest of the state. -/
structure Scan (σ : Type) where
  blockIndex : Nat
  prevB : Nat
  st : σ

/-- One iteration of
`b = …[i].block; if (b != prev_b) { block_index++; prev_b = b; <new block> } <element>` —
csbr.h:241-279, csbr.2.h:121-150, csbr.3.h:93-121, io/blocked.h:96-142 and 198-240. -/
def scanStep {σ : Type} (M : Nat) (blk : Nat → C Nat) (newBlock : Nat → Nat → Nat → σ → C σ)
    (element : Nat → Nat → σ → C σ) (i : Nat) (s : Scan σ) : C (Scan σ) := do
  let b ← blk i
  let s ← if b ≠ s.prevB then do
      let bi := addM M s.blockIndex 1
      let st ← newBlock i bi b s.st
      .ok (⟨bi, b, st⟩ : Scan σ)
    else .ok s
  let st ← element i s.blockIndex s.st
  .ok { s with st := st }

/-- The local variables `br_offset, bc_offset, br_size, bc_size`, set at the start of each block. -/
structure Cur where
  brOff : Nat
  bcOff : Nat
  brSize : Nat
  bcSize : Nat

/-- Reading local variables that may not have been assigned yet. -/
def needCur (c : Option Cur) : C Cur :=
  match c with
  | some c => .ok c
  | none => .error .uninit

/-- The computation of `br, bc` and the block's offsets and sizes from the block id `b` —
csbr.h:250-255, csbr.2.h:127-132, cgbr.h:302-307, cgbr.2.h:136-141.  Returns `(br, bc, cur)`. -/
def blockCoords (M : Nat) (offR offC : List Nat) (blockcols b : Nat) : C (Nat × Nat × Cur) := do
  let br ← cdiv b blockcols
  let bc ← cmod b blockcols
  let brOff ← rd offR br
  let bcOff ← rd offC bc
  let brEnd ← rd offR (addM M br 1)
  let bcEnd ← rd offC (addM M bc 1)
  .ok (br, bc, ⟨brOff, bcOff, subM M brEnd brOff, subM M bcEnd bcOff⟩)

/-- The four range assertions on an element — csbr.h:268-271, csbr.2.h:142-145, csbr.3.h:112-115,
cgbr.h:316-319, cgbr.2.h:149-152. -/
def assertInBlock (M : Nat) (c : Cur) (row col : Nat) : C Unit := do
  cassert (decide (c.brOff ≤ row))
  cassert (decide (row < addM M c.brOff c.brSize))
  cassert (decide (c.bcOff ≤ col))
  cassert (decide (col < addM M c.bcOff c.bcSize))

end Gsb
