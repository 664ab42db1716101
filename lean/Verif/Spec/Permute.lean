import Verif.Spec
/-
Specification of permutation vectors, of renaming the coordinates of a matrix, and of moving indices into equal slots.
Nothing here refers to the code.
-/
namespace Gsb

/-- `π` maps `0 … n-1` to itself, one to one. -/
structure IsPerm (n : Nat) (π : Nat → Nat) : Prop where
  lt : ∀ k, k < n → π k < n
  inj : ∀ j k, j < n → k < n → π j = π k → j = k

/-- The matrix with row `i` moved to row `f i` and column `j` to column `g j`. -/
def relabel {T : Type} (f g : Nat → Nat) (es : List (Ent T)) : List (Ent T) :=
  es.map fun e => ⟨f e.row, g e.col, e.val⟩

/-- `x'` is `x` with entry `i` moved to `f i`, for the first `n` entries. -/
def Moved {T : Type} (n : Nat) (f : Nat → Nat) (x x' : Nat → T) : Prop := ∀ i, i < n → x' (f i) = x i

/-- Index `i`, at position `i - lo` of block `b = [lo, hi)` of the partition `off`, becomes position `i - lo` of slot `b`
when all blocks are given slots of size `bs`. -/
def ExpandsTo (off : List Nat) (bs i j : Nat) : Prop :=
  ∃ b lo hi, off[b]? = some lo ∧ off[b + 1]? = some hi ∧ lo ≤ i ∧ i < hi ∧ j = b * bs + (i - lo)

end Gsb
