import Verif.Spec.Order
import Verif.Proof.Tools2
/-
Lemmas for expanded, prepare and sort.
-/
namespace Gsb
variable {T : Type}

theorem SamePlaces.trans {a b c : List (Ent T)} (h : SamePlaces a b) (h' : SamePlaces b c) : SamePlaces a c :=
  ⟨h.perm.trans h'.perm, fun i j => (h.places i j).trans (h'.places i j)⟩

theorem BlockOrder.samePlaces {off : List Nat} {k : Nat} {es : List (Ent T)} {l : List (Nat × Ent T)} (h : BlockOrder off k es l) :
    SamePlaces (l.map Prod.snd) es := ⟨h.perm, h.stable⟩

theorem BlockOrder.of_same {off : List Nat} {k : Nat} {es es' : List (Ent T)} {l : List (Nat × Ent T)} (h : BlockOrder off k es l)
    (h' : SamePlaces es es') : BlockOrder off k es' l :=
  ⟨h.perm.trans h'.perm, h.inBlock, h.sorted, fun i j => (h.stable i j).trans (h'.places i j)⟩

/-- A stable sort that considers equal just what is at the same place keeps each place's entries in order. -/
theorem samePlaces_sort {le : Ent T → Ent T → Bool} (h : TotalPre le) (hrefl : ∀ a b : Ent T, a.row = b.row → a.col = b.col → le a b = true)
    (l : List (Ent T)) : SamePlaces (l.mergeSort le) l := by
  refine ⟨List.mergeSort_perm _ _, fun i j => ?_⟩
  rw [filter_mergeSort h]
  refine List.mergeSort_of_pairwise ?_
  refine List.Pairwise.imp_of_mem (R := fun _ _ => True) ?_ (List.pairwise_of_forall (fun _ _ => trivial))
  intro x y hx hy _
  simp only [List.mem_filter, Bool.and_eq_true, beq_iff_eq] at hx hy
  exact hrefl x y (by omega) (by omega)

theorem sort_samePlaces {le : Ent T → Ent T → Bool} (h : TotalPre le)
    (heq : ∀ a b : Ent T, le a b = true → le b a = true → a.row = b.row ∧ a.col = b.col)
    (hrefl : ∀ a b : Ent T, a.row = b.row → a.col = b.col → le a b = true)
    {l es : List (Ent T)} (hs : SamePlaces l es) : l.mergeSort le = es.mergeSort le := by
  refine isStableSort_unique h (l := es) ?_ (isStableSort_mergeSort h es)
  have hm := isStableSort_mergeSort h l
  refine ⟨hm.perm.trans hs.perm, hm.sorted, fun a => ?_⟩
  rw [hm.stable a]
  have : (fun b => le a b && le b a) = (fun e : Ent T => e.row == a.row && e.col == a.col) := by
    funext b
    rw [Bool.eq_iff_iff, Bool.and_eq_true, Bool.and_eq_true, beq_iff_eq, beq_iff_eq]
    constructor
    · intro ⟨h1, h2⟩
      have := heq a b h1 h2
      exact ⟨this.1.symm, this.2.symm⟩
    · intro ⟨h1, h2⟩
      exact ⟨hrefl _ _ h1.symm h2.symm, hrefl _ _ h1 h2⟩
  rw [this]
  exact hs.places _ _

theorem rowFirst_refl (a b : Ent T) (h1 : a.row = b.row) (h2 : a.col = b.col) : rowFirst a b = true := by
  simp [rowFirst, h1, h2]

theorem colFirst_refl (a b : Ent T) (h1 : a.row = b.row) (h2 : a.col = b.col) : colFirst a b = true := by
  simp [colFirst, h1, h2]

theorem colFirst_antisymm (a b : Ent T) (h1 : colFirst a b = true) (h2 : colFirst b a = true) : a.row = b.row ∧ a.col = b.col := by
  simp only [colFirst, decide_eq_true_eq] at h1 h2
  omega

theorem perm_sortTriplets' {ε : Type} [NZ ε T] (row : Bool) (es : List ε) : (sortTriplets es row).Perm es := by
  unfold sortTriplets pssSort
  split <;> exact List.mergeSort_perm _ _

theorem sortRow_withKey (K : Nat → Nat → Nat) (l : List (Element T)) :
    sortTriplets (l.map (withKey K)) true = (sortTriplets l true).map (withKey K) := by
  unfold sortTriplets pssSort
  rw [if_pos rfl, if_pos rfl]
  exact (List.map_mergeSort (f := withKey K) (fun a _ b _ => rfl)).symm

/-- `expand_indeces` on elements that have their block numbers. -/
theorem expandElements_spec {M : Nat} {sizes off : List Nat} {total : Nat} (P : Partition off sizes.length total)
    (B : BlocksAtMost off (expandBlockSize M sizes)) (hM : sizes.length * expandBlockSize M sizes ≤ M) (ht : total ≤ M)
    (es : List (Element T)) (hes : ∀ e ∈ es, e.row < total ∧ e.col < total ∧ e.block = blockKey off sizes.length off sizes.length e.row e.col) :
    expandElements M sizes off es =
      .ok (expandBlockSize M sizes, es.map (moveElement (slot off sizes.length (expandBlockSize M sizes)))) := by
  unfold expandElements
  simp only
  rw [mapM_ok _ _ _ (fun e he => expandElement_spec P B hM ht (hes e he).1 (hes e he).2.1 (hes e he).2.2), ok_bind]

theorem ents_move (f : Nat → Nat) (es : List (Element T)) : ents (es.map (moveElement f)) = relabel f f (ents es) := by
  unfold ents relabel; rw [List.map_map, List.map_map]; rfl

/-- A prefix without the first character of `b` is a prefix of `a`. -/
theorem prefix_of_append {α : Type} {p a r : List α} {c : α} (h : p <+: a ++ c :: r) (hc : c ∉ p) : p <+: a := by
  rcases List.prefix_or_prefix_of_prefix h (List.prefix_append a (c :: r)) with h' | h'
  · exact h'
  · obtain ⟨q, rfl⟩ := h'
    cases q with
    | nil => simp
    | cons x q =>
      have h2 := (List.prefix_append_right_inj a).1 h
      rw [List.cons_prefix_cons] at h2
      exact absurd (by simp [h2.1]) hc

end Gsb
