import Verif.Spec
import Verif.Spec.Blocks
import Mathlib.Data.Set.Card
/-
Specification: the blocks of a partition that hold an entry.
-/
namespace Gsb

/-- The pairs (block-row, block-column) whose block holds at least one entry. -/
def nonEmptyBlocks {T : Type} (offR offC : List Nat) (L : List (Ent T)) : Set (Nat × Nat) :=
  {p | ∃ e ∈ L, InBlockRange offR p.1 e.row ∧ InBlockRange offC p.2 e.col}

/-- The rows that hold at least one entry. -/
def nonEmptyRows {T : Type} (L : List (Ent T)) : Finset Nat := (L.map (·.row)).toFinset

/-- The number of entries in the first `k` non-empty rows. -/
def entriesInFirstRows {T : Type} (L : List (Ent T)) (k : Nat) : Nat :=
  L.countP (fun e => decide (((nonEmptyRows L).filter (· < e.row)).card < k))

/-- In the order given, the entries of each row stand next to each other. -/
def RowsContiguous {T : Type} (L : List (Ent T)) : Prop :=
  ∀ l₁ r l₂ l₃, L.map (·.row) = l₁ ++ r :: l₂ ++ r :: l₃ → ∀ c ∈ l₂, c = r

end Gsb
