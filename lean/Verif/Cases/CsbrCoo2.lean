import Verif.Cases.Show
import Verif.Props.CsbrCoo2
/-
Concrete cases of C14 with readable memory behind the array.
-/
namespace Gsb

/-- A `std::sort` of slices: by column, which is by block column too. -/
def exSort (lo hi : Nat) (l : List (Triplet Int)) : C (List (Triplet Int)) :=
  .ok (l.take lo ++ ((l.take hi).drop lo).mergeSort (fun a b => decide (a.col ≤ b.col)) ++ l.drop hi)

theorem exSort_sorts {offC : List Nat} {n total : Nat} (P : Partition offC n total) : SortsByBlockColumn offC exSort := by
  intro l lo hi _ _
  refine ⟨_, rfl, List.mergeSort_perm _ _, ?_⟩
  have := List.pairwise_mergeSort (le := fun a b : Triplet Int => decide (a.col ≤ b.col))
    (fun a b c h1 h2 => by simp only [decide_eq_true_eq] at *; omega)
    (fun a b => by simp only [Bool.or_eq_true, decide_eq_true_eq]; omega) ((l.take hi).drop lo)
  refine this.imp ?_
  rintro a b h i j ⟨lo, hi, a1, a2, a3, a4⟩ ⟨lo', hi', b1, b2, b3, b4⟩
  simp only [decide_eq_true_eq] at h
  by_contra hc
  obtain ⟨k1, a1⟩ := List.getElem?_eq_some_iff.1 a1
  obtain ⟨k2, b2⟩ := List.getElem?_eq_some_iff.1 b2
  have hs := List.pairwise_iff_getElem.1 P.sorted
  by_cases heq : j + 1 = i
  · subst heq; omega
  · have := hs (j + 1) i k2 k1 (by omega); omega

theorem exVisR : Partition [0, 3, 4, 8] 3 8 := ⟨rfl, rfl, rfl, by decide⟩
theorem exVisC : Partition [0, 2, 3, 7, 10] 4 10 := ⟨rfl, rfl, rfl, by decide⟩

/-- Something that looks like an entry of row 0, then something that does not: the last block-row has entries, so the search stops
where it should. -/
theorem exVisual_behind : Behind [0, 3, 4, 8] 3 8 exVisual [⟨0, 0, 0⟩, ⟨3735928559, 17, 0⟩] :=
  ⟨⟨⟨3735928559, 17, 0⟩, by simp, by decide⟩, fun o ho => .inl ⟨⟨4, 4, 15⟩, by decide, by injection ho with ho; subst ho; decide⟩⟩

/-- No entries in the last block-row: what comes first decides. -/
theorem exVisual_behind2 : Behind [0, 3, 4, 8] 3 8 (exVisual.take 4) [⟨5, 0, 0⟩, ⟨8, 17, 0⟩] :=
  ⟨⟨⟨8, 17, 0⟩, by simp, by decide⟩, fun o ho => .inr (fun t ht => by
    injection ht with ht; injection ho with ho; subst ht ho; decide)⟩

example := C14_harmless_behind (2 ^ 32) 4 8 10 exSort exVisual [⟨0, 0, 0⟩, ⟨3735928559, 17, 0⟩] [0, 3, 4, 8] 3 [0, 2, 3, 7, 10] 4
  (by decide) exVisR exVisC (by decide) (by decide) (by decide) (by decide) (by decide) (by decide) (by decide) (by decide)
  exVisual_behind (exSort_sorts exVisC) 10 8 (by decide) (by decide) (fun _ => 1) (fun _ => 0)
example : Distinct exVisual := by decide
example := C14_harmless_sum (2 ^ 32) 4 8 10 exSort (exVisual.take 4) [⟨5, 0, 0⟩, ⟨8, 17, 0⟩] [0, 3, 4, 8] 3 [0, 2, 3, 7, 10] 4
  (by decide) exVisR exVisC (by decide) (by decide) (by decide) (by decide) (by decide) (by decide) (by decide) (by decide)
  exVisual_behind2 (exSort_sorts exVisC) 10 8 (by decide) (by decide) (fun _ => 1) (fun _ => 0)
example := C79_visual_harmless (2 ^ 32) 4 8 10 exSort (fun _ => 77) [⟨0, 0, 0⟩, ⟨3735928559, 17, 0⟩] exVisual [0, 3, 4, 8] 3 [0, 2, 3, 7, 10] 4
  (by decide) exVisR exVisC (by decide) (by decide) (by decide) (by decide) (by decide) (by decide) (by decide) (by decide) (by decide)
  exVisual_behind (exSort_sorts exVisC) 10 (by decide) (fun _ => 1)

end Gsb
