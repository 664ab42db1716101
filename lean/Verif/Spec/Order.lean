import Verif.Spec
/-
When two lists of entries are the same matrix up to the order in which it is written.
-/
namespace Gsb
variable {T : Type}

/-- The same entries, those at one place in the same order. -/
structure SamePlaces (l es : List (Ent T)) : Prop where
  perm : l.Perm es
  places : ∀ i j, l.filter (fun e => e.row == i && e.col == j) = es.filter (fun e => e.row == i && e.col == j)

end Gsb
