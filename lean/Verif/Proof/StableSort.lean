import Verif.Spec
import Verif.Spec.Sort
/-
Helper lemmas: the stable sort is unique, `List.mergeSort` computes it, filters commute with it.
-/
namespace Gsb
variable {α : Type}

theorem TotalPre.refl {le : α → α → Bool} (h : TotalPre le) (a : α) : le a a = true := by
  have := h.total a a; simpa using this

theorem isStableSort_mergeSort {le : α → α → Bool} (h : TotalPre le) (l : List α) :
    IsStableSort le l (l.mergeSort le) := by
  refine ⟨List.mergeSort_perm _ _, List.pairwise_mergeSort h.trans h.total l, fun a => ?_⟩
  have hpw : (l.filter (fun b => le a b && le b a)).Pairwise (fun a b => le a b = true) := by
    rw [List.pairwise_iff_forall_sublist]
    intro b c hs
    have hb : b ∈ l.filter (fun b => le a b && le b a) := hs.subset (by simp)
    have hc : c ∈ l.filter (fun b => le a b && le b a) := hs.subset (by simp)
    simp only [List.mem_filter, Bool.and_eq_true] at hb hc
    exact h.trans _ _ _ hb.2.2 hc.2.1
  have hs := List.sublist_mergeSort h.trans h.total hpw List.filter_sublist
  have hs2 := hs.filter (fun b => le a b && le b a)
  rw [List.filter_filter] at hs2
  simp only [Bool.and_self] at hs2
  symm
  apply hs2.eq_of_length
  rw [← List.countP_eq_length_filter, ← List.countP_eq_length_filter]
  exact (List.mergeSort_perm l le).symm.countP_eq _

theorem isStableSort_unique {le : α → α → Bool} (h : TotalPre le) {l l₁ l₂ : List α}
    (h₁ : IsStableSort le l l₁) (h₂ : IsStableSort le l l₂) : l₁ = l₂ := by
  have aux : ∀ l₁ l₂ : List α, l₁.Pairwise (fun a b => le a b = true) →
      l₂.Pairwise (fun a b => le a b = true) →
      (∀ a, l₁.filter (fun b => le a b && le b a) = l₂.filter (fun b => le a b && le b a)) →
      l₁ = l₂ := by
    intro l₁
    induction l₁ with
    | nil =>
      intro l₂ _ _ hf
      cases l₂ with
      | nil => rfl
      | cons b t =>
        have := hf b
        simp [h.refl b] at this
    | cons a t ih =>
      intro l₂ p₁ p₂ hf
      cases l₂ with
      | nil =>
        have := hf a
        simp [h.refl a] at this
      | cons b u =>
        have mem₂ : a ∈ b :: u := by
          have : a ∈ (a :: t).filter (fun c => le a c && le c a) := by simp [h.refl a]
          rw [hf a] at this
          exact List.mem_of_mem_filter this
        have mem₁ : b ∈ a :: t := by
          have : b ∈ (b :: u).filter (fun c => le b c && le c b) := by simp [h.refl b]
          rw [← hf b] at this
          exact List.mem_of_mem_filter this
        have hab : le a b = true := by
          rcases List.mem_cons.1 mem₁ with rfl | hm
          · exact h.refl _
          · exact (List.pairwise_cons.1 p₁).1 _ hm
        have hba : le b a = true := by
          rcases List.mem_cons.1 mem₂ with rfl | hm
          · exact h.refl _
          · exact (List.pairwise_cons.1 p₂).1 _ hm
        have e := hf a
        simp only [List.filter_cons, h.refl a, hab, hba, Bool.and_self, if_true, List.cons.injEq] at e
        have hab' := e.1
        subst hab'
        congr 1
        refine ih u (List.pairwise_cons.1 p₁).2 (List.pairwise_cons.1 p₂).2 (fun c => ?_)
        have := hf c
        simp only [List.filter_cons] at this
        split at this
        · exact (List.cons.inj this).2
        · exact this
  exact aux l₁ l₂ h₁.sorted h₂.sorted (fun a => (h₁.stable a).trans (h₂.stable a).symm)

theorem filter_mergeSort {le : α → α → Bool} (h : TotalPre le) (p : α → Bool) (l : List α) :
    (l.mergeSort le).filter p = (l.filter p).mergeSort le := by
  have hs := isStableSort_mergeSort h l
  refine isStableSort_unique h (l := l.filter p) ⟨hs.perm.filter p, hs.sorted.filter p, fun a => ?_⟩
    (isStableSort_mergeSort h _)
  rw [List.filter_filter, List.filter_filter]
  have : ∀ m : List α, m.filter (fun b => (le a b && le b a) && p b) =
      (m.filter (fun b => le a b && le b a)).filter p := by
    intro m; rw [List.filter_filter]; congr 1; funext b; rw [Bool.and_comm]
  rw [this, this, hs.stable a]

theorem mergeSort_congr {le le' : α → α → Bool} {l : List α}
    (h : ∀ a ∈ l, ∀ b ∈ l, le a b = le' a b) : l.mergeSort le = l.mergeSort le' := by
  have := List.map_mergeSort (r := le) (s := le') (f := id) (l := l) h
  simpa using this

/-- The entries of one row after a sort that, within a row, orders by column. -/
theorem rowEntries_mergeSort {T : Type} {le : Ent T → Ent T → Bool} (h : TotalPre le)
    (l : List (Ent T)) (i : Nat)
    (hrow : ∀ a ∈ l, ∀ b ∈ l, a.row = i → b.row = i → le a b = decide (a.col ≤ b.col)) :
    rowEntries (l.mergeSort le) i = rowByColumn l i := by
  unfold rowEntries rowByColumn rowEntries
  rw [filter_mergeSort h]
  refine mergeSort_congr (fun a ha b hb => ?_)
  simp only [List.mem_filter, beq_iff_eq] at ha hb
  exact hrow a ha.1 b hb.1 ha.2 hb.2

/-- Hence sorting so that rows are internally ordered by column makes in-order accumulation exact. -/
theorem spmvInOrder_mergeSort {T : Type} [Add T] [Mul T] {le : Ent T → Ent T → Bool} (h : TotalPre le)
    (l : List (Ent T))
    (hrow : ∀ a ∈ l, ∀ b ∈ l, a.row = b.row → le a b = decide (a.col ≤ b.col)) (x y : Nat → T) :
    spmvInOrder (l.mergeSort le) x y = spmvExact l x y := by
  funext i
  unfold spmvInOrder spmvExact
  rw [rowEntries_mergeSort h l i (fun a ha b hb e1 e2 => hrow a ha b hb (e1.trans e2.symm))]

/-- A key function into a totally ordered type gives a total preorder. -/
theorem totalPre_of_key {κ : Type} [LinearOrder κ] (key : α → κ) :
    TotalPre (fun a b => decide (key a ≤ key b)) :=
  ⟨fun a b c h1 h2 => by simp at *; exact le_trans h1 h2, fun a b => by simp; exact le_total _ _⟩

end Gsb
