import Verif.Props.Bcsr
/-
Concrete cases of C13: a 4×4 matrix in four blocks.
-/
namespace Gsb

/-- Every block of the 2×2 grid has an entry. -/
def exFull : List (Element Int) := [⟨3, 3, 5, 0⟩, ⟨0, 2, 7, 0⟩, ⟨2, 0, 1, 0⟩, ⟨1, 1, 2, 0⟩, ⟨3, 2, 4, 0⟩, ⟨2, 3, 9, 0⟩]

/-- Block 1 has no entry. -/
def exHole : List (Element Int) := [⟨3, 3, 5, 0⟩, ⟨2, 0, 1, 0⟩, ⟨1, 1, 2, 0⟩, ⟨2, 3, 9, 0⟩, ⟨2, 2, 8, 0⟩]

/-- Block 3, the last, has no entry. -/
def exNoLast : List (Element Int) := [⟨0, 2, 7, 0⟩, ⟨2, 0, 1, 0⟩, ⟨1, 1, 2, 0⟩]

theorem exPart : Partition [0, 2, 4] 2 4 := ⟨rfl, rfl, rfl, by decide⟩

theorem exFull_occupied (b : Nat) (hb : b < 2 * 2) : Occupied [0, 2, 4] [0, 2, 4] 2 (ents exFull) b := by
  match b, hb with
  | 0, _ => exact ⟨⟨1, 1, 2⟩, by decide, ⟨0, 2, rfl, rfl, by decide, by decide⟩, ⟨0, 2, rfl, rfl, by decide, by decide⟩⟩
  | 1, _ => exact ⟨⟨0, 2, 7⟩, by decide, ⟨0, 2, rfl, rfl, by decide, by decide⟩, ⟨2, 4, rfl, rfl, by decide, by decide⟩⟩
  | 2, _ => exact ⟨⟨2, 0, 1⟩, by decide, ⟨2, 4, rfl, rfl, by decide, by decide⟩, ⟨0, 2, rfl, rfl, by decide, by decide⟩⟩
  | 3, _ => exact ⟨⟨3, 3, 5⟩, by decide, ⟨2, 4, rfl, rfl, by decide, by decide⟩, ⟨2, 4, rfl, rfl, by decide, by decide⟩⟩

theorem exHole_occupied (b : Nat) (hb : b < 2 * 2) (h1 : b ≠ 1) : Occupied [0, 2, 4] [0, 2, 4] 2 (ents exHole) b := by
  match b, hb with
  | 0, _ => exact ⟨⟨1, 1, 2⟩, by decide, ⟨0, 2, rfl, rfl, by decide, by decide⟩, ⟨0, 2, rfl, rfl, by decide, by decide⟩⟩
  | 1, _ => exact absurd rfl h1
  | 2, _ => exact ⟨⟨2, 0, 1⟩, by decide, ⟨2, 4, rfl, rfl, by decide, by decide⟩, ⟨0, 2, rfl, rfl, by decide, by decide⟩⟩
  | 3, _ => exact ⟨⟨3, 3, 5⟩, by decide, ⟨2, 4, rfl, rfl, by decide, by decide⟩, ⟨2, 4, rfl, rfl, by decide, by decide⟩⟩

theorem exNoLast_occupied (b : Nat) (hb : b < 2 * 2) (h1 : b ≠ 3) : Occupied [0, 2, 4] [0, 2, 4] 2 (ents exNoLast) b := by
  match b, hb with
  | 0, _ => exact ⟨⟨1, 1, 2⟩, by decide, ⟨0, 2, rfl, rfl, by decide, by decide⟩, ⟨0, 2, rfl, rfl, by decide, by decide⟩⟩
  | 1, _ => exact ⟨⟨0, 2, 7⟩, by decide, ⟨0, 2, rfl, rfl, by decide, by decide⟩, ⟨2, 4, rfl, rfl, by decide, by decide⟩⟩
  | 2, _ => exact ⟨⟨2, 0, 1⟩, by decide, ⟨2, 4, rfl, rfl, by decide, by decide⟩, ⟨0, 2, rfl, rfl, by decide, by decide⟩⟩
  | 3, _ => exact absurd rfl h1

theorem exHole_empty : ¬ Occupied [0, 2, 4] [0, 2, 4] 2 (ents exHole) 1 := by
  rintro ⟨e, he, ⟨lo, hi, e1, e2, h1, h2⟩, ⟨lo', hi', e3, e4, h3, h4⟩⟩
  simp only [List.getElem?_cons_zero, List.getElem?_cons_succ, Option.some.injEq, Nat.reduceDiv, Nat.reduceMod, Nat.reduceAdd] at e1 e2 e3 e4
  subst e1 e2 e3 e4
  simp only [ents, exHole, List.map_cons, List.map_nil, List.mem_cons, List.not_mem_nil, or_false] at he
  rcases he with rfl | rfl | rfl | rfl | rfl <;> simp [NZ.toEnt] at h1 h2 h3 h4

example := C13_whatever_outside (2 ^ 32) 4 4 4 exFull _ 2 _ 2 exPart exPart (by decide) (by decide) (by decide) (by decide)
  (by decide) (by decide) (by decide) (by decide) (by decide)
example := C13_whatever_unset (2 ^ 32) 0 1 4 4 exHole _ 2 _ 2 exPart exPart (by decide) (by decide) (by decide) (by decide)
  (by decide) (by decide) (by decide) (by decide) (by decide) (by decide) (by decide) exHole_empty
example := C13_whatever_right (2 ^ 32) 2 4 4 exFull _ 2 _ 2 exPart exPart (by decide) (by decide) (by decide) (by decide)
  (by decide) (by decide) (by decide) (by decide) (by decide) (fun b hb _ => exFull_occupied b hb)
  (.inl (exFull_occupied 2 (by decide)))
example := C13_whatever_right (2 ^ 32) 3 4 4 exNoLast _ 2 _ 2 exPart exPart (by decide) (by decide) (by decide) (by decide)
  (by decide) (by decide) (by decide) (by decide) (by decide) exNoLast_occupied (.inr (by decide))
example := C13_whatever_last (2 ^ 32) 1 4 4 exHole _ 2 _ 2 exPart exPart (by decide) (by decide) (by decide) (by decide)
  (by decide) (by decide) (by decide) (by decide) (by decide) exHole_occupied exHole_empty

end Gsb
