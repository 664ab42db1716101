import Verif.Spec
import Verif.Spec.Blocks
/-
Specification: where the entries of a block act when the block is larger than the small index type.
-/
namespace Gsb
variable {T : Type}

/-- Where the part that contains index `i` ends: the first offset above `i`. -/
def blockEnd (off : List Nat) (i : Nat) : Nat := ((off.filter (fun o => decide (i < o))).head?).getD 0

/-- How many of the entries `L` lie in the block of `e`. -/
def blockFill (offR offC : List Nat) (L : List (Ent T)) (e : Ent T) : Nat :=
  L.countP (fun a => blockStart offR a.row = blockStart offR e.row ∧ blockStart offC a.col = blockStart offC e.col)

/-- `f` applied to `choose` of the height, the width and the number of entries of the block of `e`. -/
def blockKind {κ : Type} (choose : Nat → Nat → Nat → κ) (offR offC : List Nat) (L : List (Ent T)) (e : Ent T) : κ :=
  choose (blockEnd offR e.row - blockStart offR e.row) (blockEnd offC e.col - blockStart offC e.col) (blockFill offR offC L e)

/-- Index `i` with its distance from the start of its part taken modulo `S`. -/
def wrapIn (S : Nat) (off : List Nat) (i : Nat) : Nat := blockStart off i + (i - blockStart off i) % S

end Gsb
