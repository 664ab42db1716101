import Verif.Cases.AnyPartition
import Verif.Props.MortonInt
/-
Concrete cases for C25 with `int` indices.
-/
namespace Gsb

/-- A column on either side of 2^15. -/
def exWideCols : List (Ent Int) := [⟨0, 1, 5⟩, ⟨0, 40000, 7⟩, ⟨3, 2, 1⟩]

theorem exWideCols_ok : ∃ r, cooToBlockCooInt exWideCols = .ok r := by
  have h : ∀ es : List (Ent Int), (∀ e ∈ ents es, e.row < 2 ^ 16 ∧ e.col < 2 ^ 16) → ∃ r, cooToBlockCooInt es = .ok r := by
    intro es hfit
    unfold cooToBlockCooInt
    rw [checkLoop_ok (2 ^ 16) es hfit, ok_bind]
    simp only
    rw [cooFill_spec, ok_bind]
    exact ⟨_, rfl⟩
  exact h _ (by decide)

-- the large column comes first
example (A es') (h : cooToBlockCooInt exWideCols = .ok (A, es')) : es'.head? = some ⟨0, 40000, 7⟩ := by
  rw [C25_morton_int exWideCols (by decide) A es' h]
  have e : exWideCols.filter (fun e => decide (2 ^ 15 ≤ (NZ.toEnt e).col)) = [⟨0, 40000, 7⟩] := by decide
  rw [e]
  simp [sortTripletsMorton, pssSort]

example (A es') (h : cooToBlockCooInt exA = .ok (A, es')) : es' = sortTripletsMorton (2 ^ 32) exA :=
  C25_morton_int_small exA (by decide) A es' h

end Gsb
