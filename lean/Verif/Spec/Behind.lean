import Verif.Basic.C
import Verif.Spec.Blocks
import Verif.Spec
/-
The circumstances under which `sort_triplets_blocks` can end well although it reads behind its array.
-/
namespace Gsb
variable {T : Type}

/-- What is found behind the array lets the search for the block-rows end where it should: something there stops the search of the
last block-row, and, unless the last block-row has entries, the first thing there is not taken for an entry of an earlier one. -/
structure Behind (offR : List Nat) (blockrows rows : Nat) (ts after : List (Ent T)) : Prop where
  stops : ∃ t ∈ after, rows ≤ t.row
  first : ∀ o, offR[blockrows - 1]? = some o → (∃ e ∈ ts, o ≤ e.row) ∨ ∀ t, after.head? = some t → o ≤ t.row

/-- `std::sort` as it is called: it permutes the slice and leaves it ordered by block column; entries of the same block column may
come in any order. -/
def SortsByBlockColumn (offC : List Nat) (stdSort : Nat → Nat → List (Ent T) → C (List (Ent T))) : Prop :=
  ∀ l lo hi, lo ≤ hi → hi ≤ l.length → ∃ s, stdSort lo hi l = .ok (l.take lo ++ s ++ l.drop hi) ∧
    s.Perm ((l.take hi).drop lo) ∧
    s.Pairwise (fun a b => ∀ i j, InBlockRange offC i a.col → InBlockRange offC j b.col → i ≤ j)

end Gsb
