import Verif.Spec
/-
Specification of dense storage.  Nothing here refers to the code.
-/
namespace Gsb

/-- The value of the last entry given for coordinate `(i, j)`, or zero. -/
def lastAt {T : Type} [Zero T] (es : List (Ent T)) (i j : Nat) : T :=
  ((es.reverse.find? (fun e => e.row == i && e.col == j)).map (·.val)).getD 0

/-- A dense row-times-vector: columns `0, 1, …, n-1` in order, zeros included. -/
def denseAcc {T : Type} [Add T] [Mul T] (d : Nat → T) (x : Nat → T) (n : Nat) (acc : T) : T :=
  (List.range n).foldl (fun a j => a + d j * x j) acc

/-- No coordinate is given twice. -/
def Distinct {T : Type} (es : List (Ent T)) : Prop :=
  es.Pairwise (fun a b => ¬ (a.row = b.row ∧ a.col = b.col))

instance {T : Type} (es : List (Ent T)) : Decidable (Distinct es) := by
  unfold Distinct; infer_instance

end Gsb
