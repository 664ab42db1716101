import Verif.Proof.Tools
import Verif.Props.Permute
import Verif.Props.IoBlocked
/-
Lemmas for convert, convert_blocked, expanded and prepare.
-/
namespace Gsb
variable {T : Type}

theorem totalPre_rowFirst : TotalPre (rowFirst (T := T)) := by
  refine ⟨fun a b c => ?_, fun a b => ?_⟩ <;> simp only [rowFirst, Bool.or_eq_true, decide_eq_true_eq] <;> omega

theorem totalPre_colFirst : TotalPre (colFirst (T := T)) := by
  refine ⟨fun a b c => ?_, fun a b => ?_⟩ <;> simp only [colFirst, Bool.or_eq_true, decide_eq_true_eq] <;> omega

section
variable {ε : Type} [NZ ε T]

theorem leOf_ltColMajor' (a b : ε) : leOf ltColMajor a b = colFirst (NZ.toEnt a) (NZ.toEnt b) := by
  rw [Bool.eq_iff_iff]
  simp only [leOf, ltColMajor, colFirst, Bool.not_eq_true', Bool.or_eq_false_iff, Bool.and_eq_false_iff,
    decide_eq_false_iff_not, beq_eq_false_iff_ne, decide_eq_true_eq]
  omega

theorem leOf_ltRowMajor' (a b : ε) : leOf ltRowMajor a b = rowFirst (NZ.toEnt a) (NZ.toEnt b) := by
  rw [leOf_ltRowMajor]; rfl

theorem ents_sortCol (es : List ε) : ents (sortTriplets es false) = (ents es).mergeSort colFirst := by
  unfold ents sortTriplets pssSort
  exact List.map_mergeSort (fun a _ b _ => by rw [leOf_ltColMajor'])

theorem ents_sortRow (es : List ε) : ents (sortTriplets es true) = (ents es).mergeSort rowFirst := by
  unfold ents sortTriplets pssSort
  exact List.map_mergeSort (fun a _ b _ => by rw [leOf_ltRowMajor'])
end

/-- A stable sort forgets an earlier stable sort that orders no two entries it considers equal. -/
theorem sort_after {α : Type} {le le2 : α → α → Bool} (h : TotalPre le) (h2 : TotalPre le2) (l : List α)
    (heq : ∀ a ∈ l, ∀ b ∈ l, le a b = true → le b a = true → le2 a b = true) :
    (l.mergeSort le2).mergeSort le = l.mergeSort le := by
  refine isStableSort_unique h (l := l) ?_ (isStableSort_mergeSort h l)
  have hs := isStableSort_mergeSort h (l.mergeSort le2)
  refine ⟨hs.perm.trans (List.mergeSort_perm _ _), hs.sorted, fun a => ?_⟩
  rw [hs.stable a, filter_mergeSort h2]
  refine List.mergeSort_of_pairwise ?_
  refine List.Pairwise.imp_of_mem (R := fun _ _ => True) ?_ (List.pairwise_of_forall (fun _ _ => trivial))
  intro x y hx hy _
  simp only [List.mem_filter, Bool.and_eq_true] at hx hy
  exact heq x hx.1 y hy.1 (h.trans _ _ _ hx.2.2 hy.2.1) (h.trans _ _ _ hy.2.2 hx.2.1)

/-- The records in the order of the block sort. -/
theorem blockOrder_prepared {off : List Nat} {k n : Nat} (P : Partition off k n) (es : List (Element T))
    (hin : InRange (ents es) n n) : BlockOrder off k (ents es) ((prepared off k off k es).map recOf) := by
  have hfst : ((prepared off k off k es).map recOf).map Prod.snd = ents (prepared off k off k es) := by
    rw [List.map_map]; rfl
  refine ⟨by rw [hfst]; exact ents_prepared_perm, ?_, ?_, ?_⟩
  · intro r hr
    obtain ⟨e, he, rfl⟩ := List.mem_map.1 hr
    obtain ⟨h1, h2⟩ := mem_prepared he
    have h := hin _ h2
    have hr' : e.row < n := h.1
    have hc' : e.col < n := h.2
    have b1 := P.bidx_lt hr'
    have b2 := P.bidx_lt hc'
    have hb : e.block = bidx off k e.row * k + bidx off k e.col := h1
    show InBlockRange off (e.block / k) e.row ∧ InBlockRange off (e.block % k) e.col ∧ e.block < k * k
    rw [hb, key_div b2, key_mod b2]
    exact ⟨⟨_, _, P.get_off (by omega), P.get_off (by omega), P.bidx_lo hr', P.bidx_hi hr'⟩,
      ⟨_, _, P.get_off (by omega), P.get_off (by omega), P.bidx_lo hc', P.bidx_hi hc'⟩, key_lt b1 b2⟩
  · rw [List.pairwise_map]
    exact sortBlocks_sorted _
  · intro i j
    rw [hfst]
    let K := blockKey off k off k
    let le : Ent T → Ent T → Bool := fun a b => decide (K a.row a.col < K b.row b.col ∨ K a.row a.col = K b.row b.col ∧
      (a.row < b.row ∨ a.row = b.row ∧ a.col ≤ b.col))
    have hle : TotalPre le := by
      refine ⟨fun a b c => ?_, fun a b => ?_⟩ <;> simp only [le, Bool.or_eq_true, decide_eq_true_eq] <;> omega
    have e : ents (prepared off k off k es) = (ents es).mergeSort le := by
      have h1 : ents (prepared off k off k es) = (ents (es.map (withKey K))).mergeSort le := by
        unfold ents prepared sortElementsBlocks pssSort
        refine List.map_mergeSort (fun a ha b hb => ?_)
        obtain ⟨a', -, rfl⟩ := List.mem_map.1 ha
        obtain ⟨b', -, rfl⟩ := List.mem_map.1 hb
        rw [leOf_ltBlocks]; rfl
      rw [h1]
      congr 1
      simp only [ents, List.map_map]; rfl
    rw [e, filter_mergeSort hle]
    refine List.mergeSort_of_pairwise ?_
    refine List.Pairwise.imp_of_mem (R := fun _ _ => True) ?_ (List.pairwise_of_forall (fun _ _ => trivial))
    intro x y hx hy _
    simp only [List.mem_filter, Bool.and_eq_true, beq_iff_eq] at hx hy
    obtain ⟨-, hx1, hx2⟩ := hx
    obtain ⟨-, hy1, hy2⟩ := hy
    simp only [le, hx1, hx2, hy1, hy2, decide_eq_true_eq]
    exact .inr ⟨trivial, .inr ⟨trivial, Nat.le_refl _⟩⟩

end Gsb
