import Verif.Proof.StableSort
/-
Lists: merging in pieces, and merging two stable sorts.
-/
namespace Gsb
variable {α : Type}

theorem merge_nil_left (le : α → α → Bool) (Y : List α) : List.merge [] Y le = Y := by simp

theorem merge_nil_right (le : α → α → Bool) (X : List α) : List.merge X [] le = X := by simp

theorem merge_cons_pos {le : α → α → Bool} {x y : α} (h : le x y = true) (X Y : List α) :
    List.merge (x :: X) (y :: Y) le = x :: List.merge X (y :: Y) le := by
  rw [List.merge]; simp [h]

theorem merge_cons_neg {le : α → α → Bool} {x y : α} (h : ¬ le x y = true) (X Y : List α) :
    List.merge (x :: X) (y :: Y) le = y :: List.merge (x :: X) Y le := by
  rw [List.merge]; simp [h]

/-- If everything in the left parts goes before everything in the right parts, the parts can be merged separately. -/
theorem merge_append {le : α → α → Bool} (X1 Y1 X2 Y2 : List α)
    (h1 : ∀ x ∈ X1, ∀ y ∈ Y2, le x y = true) (h2 : ∀ x ∈ X2, ∀ y ∈ Y1, le x y = false) :
    List.merge (X1 ++ X2) (Y1 ++ Y2) le = List.merge X1 Y1 le ++ List.merge X2 Y2 le := by
  induction X1 generalizing Y1 with
  | nil =>
    induction Y1 with
    | nil => simp
    | cons y Y1 ih =>
      simp only [List.nil_append, merge_nil_left] at ih ⊢
      cases X2 with
      | nil => simp
      | cons x X2 =>
        rw [List.cons_append, merge_cons_neg (by rw [h2 x (by simp) y (by simp)]; simp),
          ih (fun x hx y' hy => h2 x hx y' (by simp [hy]))]
        rfl
  | cons x X1 ihX =>
    induction Y1 with
    | nil =>
      have := ihX [] (fun x hx y hy => h1 x (by simp [hx]) y hy) (fun x hx y hy => by simp at hy)
      simp only [List.nil_append, merge_nil_right] at this ⊢
      cases Y2 with
      | nil => simp
      | cons y Y2 => rw [List.cons_append, merge_cons_pos (h1 x (by simp) y (by simp)), this]; rfl
    | cons y Y1 ihY =>
      by_cases hc : le x y = true
      · have := ihX (y :: Y1) (fun x hx y hy => h1 x (by simp [hx]) y hy) h2
        rw [merge_cons_pos hc, List.cons_append, List.cons_append, merge_cons_pos hc, ← List.cons_append, this]; rfl
      · have := ihY (fun x hx y' hy => h2 x hx y' (by simp [hy]))
        rw [merge_cons_neg hc, List.cons_append, List.cons_append, merge_cons_neg hc, ← List.cons_append, this]; rfl

theorem filter_merge {le : α → α → Bool} (h : TotalPre le) (a : α) (X Y : List α)
    (hX : X.Pairwise (fun a b => le a b = true)) (hY : Y.Pairwise (fun a b => le a b = true)) :
    (List.merge X Y le).filter (fun b => le a b && le b a) =
      X.filter (fun b => le a b && le b a) ++ Y.filter (fun b => le a b && le b a) := by
  induction X generalizing Y with
  | nil => simp
  | cons x X ihX =>
    induction Y with
    | nil => simp
    | cons y Y ihY =>
      rw [List.pairwise_cons] at hX hY
      by_cases hc : le x y = true
      · rw [merge_cons_pos hc]
        have := ihX (y :: Y) hX.2 (List.pairwise_cons.2 hY)
        rw [List.filter_cons, this, List.filter_cons (x := x)]
        split <;> simp
      · rw [merge_cons_neg hc]
        have := ihY hY.2
        rw [List.filter_cons, this, List.filter_cons (x := y)]
        by_cases hy : (le a y && le y a) = true
        · simp only [hy, if_true]
          have hnil : (x :: X).filter (fun b => le a b && le b a) = [] := by
            rw [List.filter_eq_nil_iff]
            intro b hb hba
            simp only [Bool.and_eq_true] at hba hy
            have hxb : le x b = true := by
              rcases List.mem_cons.1 hb with rfl | hb
              · exact h.refl _
              · exact hX.1 b hb
            exact hc (h.trans _ _ _ (h.trans _ _ _ hxb hba.2) hy.1)
          rw [hnil]; rfl
        · simp only [hy, if_false]; rfl

theorem merge_mergeSort {le : α → α → Bool} (h : TotalPre le) (A B : List α) :
    List.merge (A.mergeSort le) (B.mergeSort le) le = (A ++ B).mergeSort le := by
  refine isStableSort_unique h ?_ (isStableSort_mergeSort h (A ++ B))
  have hA := isStableSort_mergeSort h A
  have hB := isStableSort_mergeSort h B
  refine ⟨?_, ?_, fun a => ?_⟩
  · exact (List.merge_perm_append _).trans (hA.perm.append hB.perm)
  · exact List.pairwise_merge h.trans h.total _ _ hA.sorted hB.sorted
  · rw [filter_merge h a _ _ hA.sorted hB.sorted, hA.stable, hB.stable, List.filter_append]

end Gsb
