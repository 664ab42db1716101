/-
Specification of stable sorting, and its uniqueness.  Nothing here refers to the code.
-/
namespace Gsb

/-- `le` is a total preorder (what a strict weak order `lt` gives by `le a b := ¬ lt b a`). -/
structure TotalPre {α : Type} (le : α → α → Bool) : Prop where
  trans : ∀ a b c, le a b = true → le b c = true → le a c = true
  total : ∀ a b, (le a b || le b a) = true

/-- `l'` is the stable sort of `l`: a permutation, sorted, and elements that compare
equal to any given element keep their order. -/
structure IsStableSort {α : Type} (le : α → α → Bool) (l l' : List α) : Prop where
  perm : l'.Perm l
  sorted : l'.Pairwise (fun a b => le a b = true)
  stable : ∀ a, l'.filter (fun b => le a b && le b a) = l.filter (fun b => le a b && le b a)

/-- The strict comparison `lt` that a C++ comparator computes induces the non-strict one. -/
def leOf {α : Type} (lt : α → α → Bool) : α → α → Bool := fun a b => !(lt b a)

end Gsb
