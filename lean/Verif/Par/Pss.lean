import Verif.Model.Pss
import Verif.Par.Seq
import Verif.Proof.MergeList
/-
`parallel_stable_sort` under every schedule.
-/
namespace Gsb
open Prog
variable {α : Type}

/-- The cells `[o, o+n)` of array `b`. -/
def rng (b o n : Nat) (l : Loc) : Prop := l.1 = b ∧ o ≤ l.2 ∧ l.2 < o + n

/-- `m` consists of exactly the cells in `F`. -/
def Own (m : Mem α) (F : Loc → Prop) : Prop := ∀ l, m l ≠ none ↔ F l

/-- The elements `L` are in array `b` from index `o` on. -/
def Holds (m : Mem α) (b o : Nat) (L : List α) : Prop := ∀ i (h : i < L.length), m (b, o + i) = some (some L[i])

/-- The memory after a store. -/
def upd (m : Mem α) (l : Loc) (c : Option α) : Mem α := fun l' => if l' = l then some c else m l'

theorem upd_ne {m : Mem α} {l l' : Loc} {c : Option α} (h : l' ≠ l) : upd m l c l' = m l' := by
  unfold upd; rw [if_neg h]

theorem upd_eq {m : Mem α} {l : Loc} {c : Option α} : upd m l c l = some c := by
  unfold upd; rw [if_pos rfl]

theorem upd_none {m : Mem α} {l l' : Loc} {c : Option α} (hl : m l ≠ none) : upd m l c l' = none ↔ m l' = none := by
  by_cases h : l' = l
  · subst h; rw [upd_eq]; simp [hl]
  · rw [upd_ne h]

/-- Same cells in use. -/
def SameDom (m m' : Mem α) : Prop := ∀ l, m' l = none ↔ m l = none

theorem SameDom.refl (m : Mem α) : SameDom m m := fun _ => Iff.rfl
theorem SameDom.trans {a b c : Mem α} (h : SameDom a b) (h' : SameDom b c) : SameDom a c := fun l => (h' l).trans (h l)
theorem SameDom.own {m m' : Mem α} {F : Loc → Prop} (h : SameDom m m') (ho : Own m F) : Own m' F :=
  fun l => (not_congr (h l)).trans (ho l)

theorem ne_loc {a b i j : Nat} (h : a ≠ b ∨ i ≠ j) : ((a, i) : Loc) ≠ (b, j) := by
  intro e; cases e; omega

theorem Holds.head {m : Mem α} {b o : Nat} {x : α} {L : List α} (h : Holds m b o (x :: L)) : m (b, o) = some (some x) := by
  have := h 0 (by simp); simpa using this

theorem Holds.tail {m : Mem α} {b o : Nat} {x : α} {L : List α} (h : Holds m b o (x :: L)) : Holds m b (o + 1) L := by
  intro i hi
  have := h (i + 1) (by simp; omega)
  rw [show o + 1 + i = o + (i + 1) by omega]; simpa using this

theorem Holds.cons {m : Mem α} {b o : Nat} {x : α} {L : List α} (h : m (b, o) = some (some x)) (h' : Holds m b (o + 1) L) :
    Holds m b o (x :: L) := by
  intro i hi
  cases i with
  | zero => simpa using h
  | succ i =>
    have := h' i (by simp at hi; omega)
    rw [show o + (i + 1) = o + 1 + i by omega]; simpa using this

theorem Holds.append {m : Mem α} {b o : Nat} {L L' : List α} (h : Holds m b o L) (h' : Holds m b (o + L.length) L') :
    Holds m b o (L ++ L') := by
  intro i hi
  by_cases hl : i < L.length
  · rw [List.getElem_append_left hl]; exact h i hl
  · rw [List.getElem_append_right (by omega)]
    have := h' (i - L.length) (by simp at hi; omega)
    rwa [show o + L.length + (i - L.length) = o + i by omega] at this

theorem Holds.take {m : Mem α} {b o : Nat} {L : List α} (h : Holds m b o L) (n : Nat) : Holds m b o (L.take n) := by
  intro i hi
  simp only [List.length_take] at hi
  rw [List.getElem_take]; exact h i (by omega)

theorem Holds.drop {m : Mem α} {b o : Nat} {L : List α} (h : Holds m b o L) (n : Nat) : Holds m b (o + n) (L.drop n) := by
  intro i hi
  simp only [List.length_drop] at hi
  rw [List.getElem_drop, show o + n + i = o + (n + i) by omega]; exact h (n + i) (by omega)

theorem Holds.congr {m m' : Mem α} {b o : Nat} {L : List α} (h : Holds m b o L)
    (he : ∀ i, i < L.length → m' (b, o + i) = m (b, o + i)) : Holds m' b o L := fun i hi => by rw [he i hi]; exact h i hi

theorem Holds.nil {m : Mem α} {b o : Nat} : Holds m b o [] := fun i hi => by simp at hi

/-! ### The sequential parts -/

theorem safe_moveOne {s d i j : Nat} (hsd : s ≠ d) {m : Mem α} {v : α} {k : Prog α} {Q : Nat → Mem α → Prop}
    (hi : m (s, i) = some (some v)) (hj : m (d, j) ≠ none)
    (hk : ∀ n, safe Q n k (upd (upd m (d, j) (some v)) (s, i) none)) (n : Nat) : safe Q n (moveOneP s i d j k) m := by
  unfold moveOneP
  refine safe_load hi (fun n => safe_store hj (fun n => safe_store ?_ hk n) n) n
  show upd m (d, j) (some v) (s, i) ≠ none
  rw [upd_ne (ne_loc (Or.inl hsd)), hi]; simp

theorem moveOne_dom {s d i j : Nat} (hsd : s ≠ d) {m : Mem α} {v : α} (hi : m (s, i) ≠ none) (hj : m (d, j) ≠ none) :
    SameDom m (upd (upd m (d, j) (some v)) (s, i) none) := by
  intro l
  rw [upd_none (by rw [upd_ne (ne_loc (Or.inl hsd))]; exact hi), upd_none hj]

theorem safe_moveP {s d : Nat} (hsd : s ≠ d) (L : List α) (o z : Nat) (m : Mem α) (Q : Nat → Mem α → Prop)
    (hX : Holds m s o L) (hz : ∀ i, i < L.length → m (d, z + i) ≠ none)
    (hQ : ∀ m', SameDom m m' → (∀ l, ¬ rng s o L.length l → ¬ rng d z L.length l → m' l = m l) → Holds m' d z L → Q 0 m')
    (n : Nat) : safe Q n (moveP s o d z L.length) m := by
  induction L generalizing o z m Q n with
  | nil =>
    refine safe_ret (hQ m (SameDom.refl m) (fun _ _ _ => rfl) Holds.nil) n
  | cons x L ih =>
    rw [List.length_cons, moveP]
    have h0 := hX.head
    have hz0 : m (d, z) ≠ none := hz 0 (by simp)
    refine safe_moveOne hsd h0 hz0 (fun n => ?_) n
    refine ih (o + 1) (z + 1) _ Q ?_ ?_ ?_ n
    · refine hX.tail.congr (fun i hi => ?_)
      rw [upd_ne (ne_loc (Or.inr (by omega))), upd_ne (ne_loc (Or.inl hsd))]
    · intro i hi
      have := hz (i + 1) (by simp; omega)
      rw [show z + 1 + i = z + (i + 1) by omega]
      rw [upd_ne (ne_loc (Or.inl (Ne.symm hsd))), upd_ne (ne_loc (Or.inr (by omega)))]
      exact this
    · intro m' hd ha hh
      refine hQ m' ((moveOne_dom hsd (by rw [h0]; simp) hz0).trans hd) ?_ ?_
      · rintro ⟨a, b⟩ h1 h2
        unfold rng at h1 h2 ha
        simp only [List.length_cons] at h1 h2
        rw [ha _ (by simp only; omega) (by simp only; omega), upd_ne, upd_ne]
        · exact ne_loc (by omega)
        · exact ne_loc (by omega)
      · refine Holds.cons ?_ hh
        rw [ha, upd_ne (ne_loc (Or.inl (Ne.symm hsd))), upd_eq]
        · unfold rng; simp only [true_and]; omega
        · unfold rng; simp only [true_and]; omega

theorem safe_destroyP {s o : Nat} (N : Nat) (m : Mem α) (Q : Nat → Mem α → Prop)
    (hz : ∀ i, i < N → m (s, o + i) ≠ none)
    (hQ : ∀ m', SameDom m m' → (∀ l, ¬ rng s o N l → m' l = m l) → Q 0 m') (n : Nat) : safe Q n (destroyP s o N) m := by
  induction N generalizing m n with
  | zero => exact safe_ret (hQ m (SameDom.refl m) (fun _ _ => rfl)) n
  | succ N ih =>
    rw [destroyP]
    have h0 : m (s, o + N) ≠ none := hz N (by omega)
    refine safe_store h0 (fun n => ih (upd m (s, o + N) none) ?_ ?_ n) n
    · intro i hi hn
      exact hz i (by omega) ((upd_none h0).1 hn)
    · intro m' hd ha
      refine hQ m' (fun l => (hd l).trans (upd_none h0)) ?_
      rintro ⟨a, b⟩ h1
      unfold rng at h1 ha
      rw [ha _ (by simp only at h1 ⊢; omega), upd_ne (ne_loc (by simp only at h1; omega))]

theorem safe_constructP {d : Nat} (N z : Nat) (m : Mem α) (Q : Nat → Mem α → Prop)
    (hz : ∀ i, i < N → m (d, z + i) ≠ none)
    (hQ : ∀ m', SameDom m m' → (∀ l, ¬ rng d z N l → m' l = m l) → Q 0 m') (n : Nat) : safe Q n (constructP d z N) m := by
  induction N generalizing z m n with
  | zero => exact safe_ret (hQ m (SameDom.refl m) (fun _ _ => rfl)) n
  | succ N ih =>
    rw [constructP]
    have h0 : m (d, z) ≠ none := hz 0 (by omega)
    refine safe_store h0 (fun n => ih (z + 1) (upd m (d, z) none) ?_ ?_ n) n
    · intro i hi hn
      have := hz (i + 1) (by omega)
      rw [show z + (i + 1) = z + 1 + i by omega] at this
      exact this ((upd_none h0).1 hn)
    · intro m' hd ha
      refine hQ m' (fun l => (hd l).trans (upd_none h0)) ?_
      rintro ⟨a, b⟩ h1
      unfold rng at h1 ha
      rw [ha _ (by simp only at h1 ⊢; omega), upd_ne (ne_loc (by simp only at h1; omega))]

theorem safe_loadAll {s : Nat} (L : List α) (o : Nat) (k : List α → Prog α) (m : Mem α) (Q : Nat → Mem α → Prop)
    (hX : Holds m s o L) (hk : ∀ n, safe Q n (k L) m) (n : Nat) : safe Q n (loadAllP s o L.length k) m := by
  induction L generalizing o k n with
  | nil => exact hk n
  | cons x L ih => exact safe_load hX.head (fun n => ih (o + 1) _ hX.tail hk n) n

theorem safe_storeAll {s : Nat} (L : List α) (o : Nat) (k : Prog α) (m : Mem α) (Q : Nat → Mem α → Prop)
    (hz : ∀ i, i < L.length → m (s, o + i) ≠ none)
    (hk : ∀ m', SameDom m m' → (∀ l, ¬ rng s o L.length l → m' l = m l) → Holds m' s o L → ∀ n, safe Q n k m') (n : Nat) :
    safe Q n (storeAllP s o L k) m := by
  induction L generalizing o m n with
  | nil => exact hk m (SameDom.refl m) (fun _ _ => rfl) Holds.nil n
  | cons x L ih =>
    rw [storeAllP]
    have h0 : m (s, o) ≠ none := hz 0 (by simp)
    refine safe_store h0 (fun n => ih (o + 1) (upd m (s, o) (some x)) ?_ ?_ n) n
    · intro i hi hn
      have := hz (i + 1) (by simp; omega)
      rw [show o + (i + 1) = o + 1 + i by omega] at this
      exact this ((upd_none h0).1 hn)
    · intro m' hd ha hh
      refine hk m' (fun l => (hd l).trans (upd_none h0)) ?_ ?_
      · rintro ⟨a, b⟩ h1
        unfold rng at h1 ha
        simp only [List.length_cons] at h1
        rw [ha _ (by simp only at h1 ⊢; omega), upd_ne (ne_loc (by omega))]
      · refine Holds.cons ?_ hh
        rw [ha _ (by unfold rng; simp only [true_and]; omega), upd_eq]

theorem safe_stdStableSort (lt : α → α → Bool) {s : Nat} (L : List α) (o : Nat) (k : Prog α) (m : Mem α) (Q : Nat → Mem α → Prop)
    (hX : Holds m s o L)
    (hk : ∀ m', SameDom m m' → (∀ l, ¬ rng s o L.length l → m' l = m l) → Holds m' s o (L.mergeSort (leOf lt)) → ∀ n, safe Q n k m')
    (n : Nat) : safe Q n (stdStableSortP lt s o L.length k) m := by
  unfold stdStableSortP
  refine safe_loadAll L o _ m Q hX (fun n => ?_) n
  refine safe_storeAll _ o k m Q ?_ ?_ n
  · intro i hi
    rw [List.length_mergeSort] at hi
    rw [hX i hi]; simp
  · rw [List.length_mergeSort]; exact hk

theorem safe_serialMerge (lt : α → α → Bool) {s d : Nat} (hsd : s ≠ d) (X Y : List α) (xs ys zs : Nat) (m : Mem α)
    (Q : Nat → Mem α → Prop) (hxy : xs + X.length ≤ ys) (hX : Holds m s xs X) (hY : Holds m s ys Y)
    (hz : ∀ i, i < X.length + Y.length → m (d, zs + i) ≠ none)
    (hQ : ∀ m', SameDom m m' → (∀ l, ¬ rng s xs X.length l → ¬ rng s ys Y.length l → ¬ rng d zs (X.length + Y.length) l → m' l = m l) →
      Holds m' d zs (List.merge X Y (leOf lt)) → Q 0 m') (n : Nat) :
    safe Q n (serialMergeP lt s d xs X.length ys Y.length zs) m := by
  induction X generalizing xs ys zs m Y Q n with
  | nil =>
    have : serialMergeP lt s d xs (([] : List α).length) ys Y.length zs = moveP s ys d zs Y.length := by
      rw [List.length_nil]; unfold serialMergeP; rfl
    rw [this]
    refine safe_moveP hsd Y ys zs m Q hY (fun i hi => hz i (by simpa using hi)) ?_ n
    intro m' h1 h2 h3
    refine hQ m' h1 (fun l _ h5 h6 => h2 l h5 (by simpa using h6)) ?_
    rwa [merge_nil_left]
  | cons x X ihX =>
    induction Y generalizing ys zs m Q n with
    | nil =>
      have : serialMergeP lt s d xs (x :: X).length ys (([] : List α).length) zs = moveP s xs d zs (x :: X).length := by
        rw [List.length_nil, List.length_cons]; unfold serialMergeP; rfl
      rw [this]
      refine safe_moveP hsd (x :: X) xs zs m Q hX (fun i hi => hz i (by simpa using hi)) ?_ n
      intro m' h1 h2 h3
      refine hQ m' h1 (fun l h4 _ h6 => h2 l h4 (by simpa using h6)) ?_
      rwa [merge_nil_right]
    | cons y Y ihY =>
      rw [List.length_cons, List.length_cons, serialMergeP]
      simp only [List.length_cons] at hxy hz hQ
      have hz0 : m (d, zs) ≠ none := hz 0 (by omega)
      refine safe_load hY.head (fun n => safe_load hX.head (fun n => ?_) n) n
      by_cases hlt : lt y x = true
      · rw [if_pos hlt]
        refine safe_moveOne hsd hY.head hz0 (fun n => ?_) n
        refine ihY (ys + 1) (zs + 1) _ Q (by simp only [List.length_cons]; omega) ?_ ?_ ?_ ?_ n
        · refine hX.congr (fun i hi => ?_)
          simp only [List.length_cons] at hi
          rw [upd_ne (ne_loc (Or.inr (by omega))), upd_ne (ne_loc (Or.inl hsd))]
        · refine hY.tail.congr (fun i hi => ?_)
          rw [upd_ne (ne_loc (Or.inr (by omega))), upd_ne (ne_loc (Or.inl hsd))]
        · intro i hi
          simp only [List.length_cons] at hi
          rw [upd_ne (ne_loc (Or.inl (Ne.symm hsd))), upd_ne (ne_loc (Or.inr (by omega))), show zs + 1 + i = zs + (i + 1) by omega]
          exact hz _ (by omega)
        · intro m' hd ha hh
          simp only [List.length_cons] at ha
          refine hQ m' ((moveOne_dom hsd (by rw [hY.head]; simp) hz0).trans hd) ?_ ?_
          · rintro ⟨a, b⟩ h1 h2 h3
            unfold rng at h1 h2 h3 ha
            simp only at h1 h2 h3
            rw [ha _ (by simp only; omega) (by simp only; omega) (by simp only; omega), upd_ne (ne_loc (by omega)), upd_ne (ne_loc (by omega))]
          · rw [merge_cons_neg (by simp [leOf, hlt])]
            refine Holds.cons ?_ hh
            rw [ha, upd_ne (ne_loc (Or.inl (Ne.symm hsd))), upd_eq] <;> (unfold rng; simp only [true_and]; omega)
      · rw [if_neg hlt]
        refine safe_moveOne hsd hX.head hz0 (fun n => ?_) n
        have := ihX (y :: Y) (xs + 1) ys (zs + 1) (upd (upd m (d, zs) (some x)) (s, xs) none) Q (by omega) ?_ ?_ ?_ ?_ n
        · simpa only [List.length_cons] using this
        · refine hX.tail.congr (fun i hi => ?_)
          rw [upd_ne (ne_loc (Or.inr (by omega))), upd_ne (ne_loc (Or.inl hsd))]
        · refine hY.congr (fun i hi => ?_)
          rw [upd_ne (ne_loc (Or.inr (by omega))), upd_ne (ne_loc (Or.inl hsd))]
        · intro i hi
          simp only [List.length_cons] at hi
          rw [upd_ne (ne_loc (Or.inl (Ne.symm hsd))), upd_ne (ne_loc (Or.inr (by omega))), show zs + 1 + i = zs + (i + 1) by omega]
          exact hz _ (by omega)
        · intro m' hd ha hh
          simp only [List.length_cons] at ha
          refine hQ m' ((moveOne_dom hsd (by rw [hX.head]; simp) hz0).trans hd) ?_ ?_
          · rintro ⟨a, b⟩ h1 h2 h3
            unfold rng at h1 h2 h3 ha
            simp only at h1 h2 h3
            rw [ha _ (by simp only; omega) (by simp only; omega) (by simp only; omega), upd_ne (ne_loc (by omega)), upd_ne (ne_loc (by omega))]
          · rw [merge_cons_pos (by simp [leOf, hlt])]
            refine Holds.cons ?_ hh
            rw [ha, upd_ne (ne_loc (Or.inl (Ne.symm hsd))), upd_eq] <;> (unfold rng; simp only [true_and]; omega)

theorem safe_bound (left : α → α → Bool) {s vi o : Nat} (L : List α) (v : α) (m : Mem α) (hL : Holds m s o L)
    (hv : m (s, vi) = some (some v))
    (hmono : ∀ i j (hi : i < L.length) (hj : j < L.length), i ≤ j → left v L[i] = true → left v L[j] = true)
    (fuel f len : Nat) (hfuel : len < fuel) (hle : f + len ≤ L.length)
    (hlo : ∀ i (hi : i < L.length), i < f → left v L[i] = false)
    (hhi : ∀ i (hi : i < L.length), f + len ≤ i → left v L[i] = true) (n : Nat) :
    safe (fun r x => x = m ∧ ∃ c, r = o + c ∧ c ≤ L.length ∧ (∀ i (hi : i < L.length), i < c → left v L[i] = false) ∧
      (∀ i (hi : i < L.length), c ≤ i → left v L[i] = true)) n (boundP left s vi fuel (o + f) len) m := by
  induction fuel generalizing f len n with
  | zero => omega
  | succ fuel ih =>
    rw [boundP]
    by_cases h0 : len = 0
    · rw [if_pos h0]
      refine safe_ret ⟨rfl, f, rfl, by omega, hlo, ?_⟩ n
      intro i hi hc; exact hhi i hi (by omega)
    · rw [if_neg h0]
      have hm : f + len / 2 < L.length := by omega
      refine safe_load hv (fun n => safe_load (v := L[f + len / 2]) ?_ (fun n => ?_) n) n
      · rw [show o + f + len / 2 = o + (f + len / 2) by omega]; exact hL _ hm
      · by_cases hc : left v L[f + len / 2] = true
        · rw [if_pos hc]
          exact ih f (len / 2) (by omega) (by omega) hlo
            (fun i hi hi2 => hmono _ _ hm hi hi2 hc) n
        · rw [if_neg hc]
          rw [show o + f + len / 2 + 1 = o + (f + len / 2 + 1) by omega]
          refine ih (f + len / 2 + 1) (len - len / 2 - 1) (by omega) (by omega) ?_
            (fun i hi hi2 => hhi i hi (by omega)) n
          intro i hi hi2
          by_contra hne
          exact hc (hmono i _ hi hm (by omega) (by simpa using hne))

/-! ### The parallel merge -/

/-- What a merge of `nx` and `ny` elements accesses. -/
def mergeFoot (s d xs nx ys ny zs : Nat) (l : Loc) : Prop := rng s xs nx l ∨ rng s ys ny l ∨ rng d zs (nx + ny) l

theorem Own.only {m : Mem α} {F G : Loc → Prop} (h : Own m F) (hG : ∀ l, G l → F l) : Own (m.only G) G := by
  intro l
  by_cases hl : G l
  · rw [Mem.only_pos hl]; exact ⟨fun _ => hl, fun _ => (h l).2 (hG l hl)⟩
  · rw [Mem.only_neg hl]; simp [hl]

theorem Own.rest {m : Mem α} {F G H : Loc → Prop} (h : Own m F) (hG : ∀ l, H l ↔ F l ∧ ¬ G l) :
    Own (m.only (fun l => ¬ G l)) H := by
  intro l
  by_cases hl : G l
  · rw [Mem.only_neg (by simpa using hl), hG]; simp [hl]
  · rw [Mem.only_pos hl, hG]; simp only [hl, not_false_eq_true, and_true]; exact h l

theorem Own.union {m m' : Mem α} {F F' G : Loc → Prop} (h : Own m F) (h' : Own m' F') (hG : ∀ l, G l ↔ F l ∨ F' l) :
    Own (m.union m') G := by
  intro l
  rw [ne_eq, Mem.union_none, hG, ← h l, ← h' l, not_and_or]

theorem Holds.only {m : Mem α} {b o : Nat} {L : List α} {G : Loc → Prop} (h : Holds m b o L)
    (hG : ∀ i, i < L.length → G (b, o + i)) : Holds (m.only G) b o L :=
  h.congr (fun i hi => Mem.only_pos (hG i hi))

theorem Holds.union_left {m m' : Mem α} {b o : Nat} {L : List α} (h : Holds m b o L) : Holds (m.union m') b o L :=
  h.congr (fun i hi => Mem.union_left (by rw [h i hi]; simp))

theorem Holds.union_right {m m' : Mem α} {b o : Nat} {L : List α} (hd : Disj m m') (h : Holds m' b o L) :
    Holds (m.union m') b o L := by
  rw [Mem.union_comm hd]; exact h.union_left

theorem safe_parMerge {lt : α → α → Bool} (hlt : TotalPre (leOf lt)) (cut : Nat) (hcut : 2 ≤ cut) (destroy : Bool)
    {s d : Nat} (hsd : s ≠ d) (fuel : Nat) (X Y : List α) (xs ys zs : Nat) (m : Mem α) (hfuel : X.length + Y.length < fuel)
    (hsX : X.Pairwise (fun a b => leOf lt a b = true)) (hsY : Y.Pairwise (fun a b => leOf lt a b = true))
    (hxy : xs + X.length ≤ ys) (hown : Own m (mergeFoot s d xs X.length ys Y.length zs))
    (hX : Holds m s xs X) (hY : Holds m s ys Y) (n : Nat) :
    safe (fun _ m' => Own m' (mergeFoot s d xs X.length ys Y.length zs) ∧ Holds m' d zs (List.merge X Y (leOf lt))) n
      (parMergeP lt cut destroy s d fuel xs X.length ys Y.length zs) m := by
  induction fuel generalizing X Y xs ys zs m n with
  | zero => omega
  | succ fuel ih =>
    -- the two halves, split at `a` and `b`
    have step : ∀ a b, a ≤ X.length → b ≤ Y.length → a + b < X.length + Y.length → 0 < a + b →
        (∀ x ∈ X.take a, ∀ y ∈ Y.drop b, leOf lt x y = true) → (∀ x ∈ X.drop a, ∀ y ∈ Y.take b, leOf lt x y = false) →
        ∀ n, safe (fun _ m' => Own m' (mergeFoot s d xs X.length ys Y.length zs) ∧ Holds m' d zs (List.merge X Y (leOf lt))) n
          (fork (parMergeP lt cut destroy s d fuel xs a ys b zs)
            (parMergeP lt cut destroy s d fuel (xs + a) (X.length - a) (ys + b) (Y.length - b) (zs + (a + b))) (fun _ => ret 0)) m := by
      intro a b ha hb hab hpos h1 h2 n
      have la : (X.take a).length = a := by rw [List.length_take]; omega
      have lb : (Y.take b).length = b := by rw [List.length_take]; omega
      have la' : (X.drop a).length = X.length - a := List.length_drop
      have lb' : (Y.drop b).length = Y.length - b := List.length_drop
      have e := Mem.only_split m (mergeFoot s d xs a ys b zs)
      rw [← e]
      have hp := fun n => ih (X.take a) (Y.take b) xs ys zs (m.only (mergeFoot s d xs a ys b zs)) (by omega)
        (hsX.sublist (List.take_sublist _ _)) (hsY.sublist (List.take_sublist _ _)) (by omega)
        (by
          rw [la, lb]
          refine hown.only (fun l hl => ?_)
          unfold mergeFoot rng at *; omega)
        ((hX.take a).only (fun i hi => by
          rw [la] at hi; unfold mergeFoot rng; simp only [true_and]; omega))
        ((hY.take b).only (fun i hi => by
          rw [lb] at hi; unfold mergeFoot rng; simp only [true_and]; omega)) n
      have hq := fun n => ih (X.drop a) (Y.drop b) (xs + a) (ys + b) (zs + (a + b))
        (m.only (fun l => ¬ mergeFoot s d xs a ys b zs l)) (by omega)
        (hsX.sublist (List.drop_sublist _ _)) (hsY.sublist (List.drop_sublist _ _)) (by omega)
        (by
          rw [la', lb']
          refine hown.rest (fun l => ?_)
          unfold mergeFoot rng; omega)
        ((hX.drop a).only (fun i hi => by
          rw [la'] at hi; unfold mergeFoot rng; simp only [true_and]; omega))
        ((hY.drop b).only (fun i hi => by
          rw [lb'] at hi; unfold mergeFoot rng; simp only [true_and]; omega)) n
      rw [la, lb] at hp
      rw [la', lb'] at hq
      refine safe_fork ?_ n (Mem.only_disj _ _ _) (hp n) (hq n)
      rintro r r' m1 m2 hd ⟨o1, q1⟩ ⟨o2, q2⟩ n
      refine safe_ret ⟨o1.union o2 (fun l => ?_), ?_⟩ n
      · unfold mergeFoot rng; omega
      · rw [← List.take_append_drop a X, ← List.take_append_drop b Y, merge_append _ _ _ _ h1 h2]
        refine q1.union_left.append (Holds.union_right hd ?_)
        rw [List.length_merge, la, lb]
        exact q2
    have trans := hlt.trans
    have getX : ∀ i j (hi : i < X.length) (hj : j < X.length), i ≤ j → leOf lt X[i] X[j] = true := by
      intro i j hi hj hij
      rcases Nat.lt_or_ge i j with h | h
      · exact List.pairwise_iff_getElem.1 hsX i j hi hj h
      · obtain rfl : i = j := by omega
        exact hlt.refl _
    have getY : ∀ i j (hi : i < Y.length) (hj : j < Y.length), i ≤ j → leOf lt Y[i] Y[j] = true := by
      intro i j hi hj hij
      rcases Nat.lt_or_ge i j with h | h
      · exact List.pairwise_iff_getElem.1 hsY i j hi hj h
      · obtain rfl : i = j := by omega
        exact hlt.refl _
    rw [parMergeP]
    by_cases hc : cut < X.length + Y.length
    · rw [if_pos hc]
      by_cases hlen : X.length < Y.length
      · rw [if_pos hlen]
        have hb : Y.length / 2 < Y.length := by omega
        unfold upperBoundP
        refine safe_seq ?_ n (safe_bound (fun v e => lt v e) X Y[Y.length / 2] m hX (hY _ hb) ?_ (X.length + 1) 0 X.length (by omega)
          (by omega) (by intro i hi h; omega) (by intro i hi h; omega) n)
        · rintro r x ⟨rfl, c, rfl, hcl, hlo, hhi⟩ n
          simp only [Nat.add_sub_cancel_left]
          refine step c (Y.length / 2) hcl (by omega) (by omega) (by omega) ?_ ?_ n
          · intro x hx y hy
            obtain ⟨i, hi, rfl⟩ := List.getElem_of_mem hx
            obtain ⟨j, hj, rfl⟩ := List.getElem_of_mem hy
            rw [List.length_take] at hi
            rw [List.length_drop] at hj
            rw [List.getElem_take, List.getElem_drop]
            have e1 := hlo i (by omega) (by omega)
            exact trans _ Y[Y.length / 2] _ (by simp [leOf, e1]) (getY _ _ _ _ (by omega))
          · intro x hx y hy
            obtain ⟨i, hi, rfl⟩ := List.getElem_of_mem hx
            obtain ⟨j, hj, rfl⟩ := List.getElem_of_mem hy
            rw [List.length_drop] at hi
            rw [List.length_take] at hj
            rw [List.getElem_take, List.getElem_drop]
            have e1 := hhi (c + i) (by omega) (by omega)
            rw [← Bool.not_eq_true]
            intro hle
            have := trans _ _ _ hle (getY j (Y.length / 2) (by omega) hb (by omega))
            simp [leOf, e1] at this
        · intro i j hi hj hij h
          by_contra hn
          have h1 : leOf lt X[j] Y[Y.length / 2] = true := by simp only [leOf]; simpa using hn
          have := trans _ _ _ (getX i j hi hj hij) h1
          simp [leOf, h] at this
      · rw [if_neg hlen]
        have hb : X.length / 2 < X.length := by omega
        unfold lowerBoundP
        refine safe_seq ?_ n (safe_bound (fun v e => !(lt e v)) Y X[X.length / 2] m hY (hX _ hb) ?_ (Y.length + 1) 0 Y.length (by omega)
          (by omega) (by intro i hi h; omega) (by intro i hi h; omega) n)
        · rintro r x ⟨rfl, c, rfl, hcl, hlo, hhi⟩ n
          simp only [Nat.add_sub_cancel_left]
          refine step (X.length / 2) c (by omega) hcl (by omega) (by omega) ?_ ?_ n
          · intro x hx y hy
            obtain ⟨i, hi, rfl⟩ := List.getElem_of_mem hx
            obtain ⟨j, hj, rfl⟩ := List.getElem_of_mem hy
            rw [List.length_take] at hi
            rw [List.length_drop] at hj
            rw [List.getElem_take, List.getElem_drop]
            exact trans _ X[X.length / 2] _ (getX _ _ _ _ (by omega)) (hhi (c + j) (by omega) (by omega))
          · intro x hx y hy
            obtain ⟨i, hi, rfl⟩ := List.getElem_of_mem hx
            obtain ⟨j, hj, rfl⟩ := List.getElem_of_mem hy
            rw [List.length_drop] at hi
            rw [List.length_take] at hj
            rw [List.getElem_take, List.getElem_drop]
            have e1 : leOf lt X[X.length / 2] Y[j] = false := hlo j (by omega) (by omega)
            rw [← Bool.not_eq_true]
            intro hle
            have := trans _ _ _ (getX (X.length / 2) (X.length / 2 + i) hb (by omega) (by omega)) hle
            rw [e1] at this; cases this
        · intro i j hi hj hij h
          exact trans _ _ _ h (getY i j hi hj hij)
    · rw [if_neg hc]
      refine safe_seq (Q := fun _ m' => Own m' (mergeFoot s d xs X.length ys Y.length zs) ∧ Holds m' d zs (List.merge X Y (leOf lt)))
        ?_ n (safe_serialMerge lt hsd X Y xs ys zs m _ hxy hX hY ?_ ?_ n)
      · rintro r m' ⟨ho, hh⟩ n
        by_cases hdes : destroy = true
        · rw [if_pos hdes]
          have hdh : ∀ (o N : Nat) (m1 m2 : Mem α), Holds m1 d zs (List.merge X Y (leOf lt)) →
              (∀ l, ¬ rng s o N l → m2 l = m1 l) → Holds m2 d zs (List.merge X Y (leOf lt)) := by
            intro o N m1 m2 h1 h2
            refine h1.congr (fun i hi => h2 _ ?_)
            unfold rng; simp only [true_and]; omega
          refine safe_seq (Q := fun _ m' => Own m' (mergeFoot s d xs X.length ys Y.length zs) ∧ Holds m' d zs (List.merge X Y (leOf lt)))
            ?_ n (safe_destroyP X.length m' _ ?_ ?_ n)
          · rintro r m'' ⟨ho, hh⟩ n
            refine safe_destroyP Y.length m'' _ ?_ ?_ n
            · intro i hi
              refine (ho _).2 ?_
              unfold mergeFoot rng; simp only [true_and]; omega
            · intro m3 h1 h2
              exact ⟨h1.own ho, hdh _ _ _ _ hh h2⟩
          · intro i hi
            refine (ho _).2 ?_
            unfold mergeFoot rng; simp only [true_and]; omega
          · intro m3 h1 h2
            exact ⟨h1.own ho, hdh _ _ _ _ hh h2⟩
        · rw [if_neg hdes]
          exact safe_ret ⟨ho, hh⟩ n
      · intro i hi
        refine (hown _).2 ?_
        unfold mergeFoot rng; simp only [true_and]; omega
      · intro m' h1 h2 h3
        exact ⟨h1.own hown, h3⟩

/-! ### The sort -/

/-- What a sort of `n` elements accesses. -/
def sortFoot (s d xs zs n : Nat) (l : Loc) : Prop := rng s xs n l ∨ rng d zs n l

theorem safe_sortBase (lt : α → α → Bool) {s d : Nat} (hsd : s ≠ d) (L : List α) (xs zs inplace : Nat) (m : Mem α)
    (hown : Own m (sortFoot s d xs zs L.length)) (hX : Holds m s xs L) (n : Nat) :
    safe (fun _ m' => Own m' (sortFoot s d xs zs L.length) ∧
        Holds m' (if inplace = 0 then d else s) (if inplace = 0 then zs else xs) (L.mergeSort (leOf lt))) n
      (sortBaseP lt s d xs L.length zs inplace) m := by
  unfold sortBaseP
  refine safe_stdStableSort lt L xs _ m _ hX (fun m' hd ha hh n => ?_) n
  have ho' := hd.own hown
  have hz : ∀ i, i < L.length → m' (d, zs + i) ≠ none := by
    intro i hi
    refine (ho' _).2 ?_
    unfold sortFoot rng; simp only [true_and]; omega
  by_cases h2 : inplace = 2
  · rw [if_pos h2]
    refine safe_ret ⟨ho', ?_⟩ n
    rw [if_neg (by omega), if_neg (by omega)]; exact hh
  · rw [if_neg h2]
    by_cases h0 : inplace = 0
    · rw [if_pos h0, if_pos h0, if_neg (not_not.2 h0)]
      have := safe_moveP hsd (L.mergeSort (leOf lt)) xs zs m' (fun _ m' => Own m' (sortFoot s d xs zs L.length) ∧
        Holds m' d zs (L.mergeSort (leOf lt))) hh (by rw [List.length_mergeSort]; exact hz) ?_ n
      · rwa [List.length_mergeSort] at this
      · intro m2 d2 _ h2
        exact ⟨d2.own ho', h2⟩
    · rw [if_neg h0, if_neg h0, if_pos h0]
      refine safe_constructP L.length zs m' _ hz (fun m2 d2 a2 => ⟨d2.own ho', ?_⟩) n
      refine hh.congr (fun i hi => a2 _ ?_)
      unfold rng; simp only [true_and]; omega

theorem safe_sortAux {lt : α → α → Bool} (hlt : TotalPre (leOf lt)) (cut mcut : Nat) (hcut : 1 ≤ cut) (hmcut : 2 ≤ mcut)
    {s d : Nat} (hsd : s ≠ d) (fuel : Nat) (L : List α) (xs zs inplace : Nat) (m : Mem α) (hfuel : L.length < fuel)
    (hown : Own m (sortFoot s d xs zs L.length)) (hX : Holds m s xs L) (n : Nat) :
    safe (fun _ m' => Own m' (sortFoot s d xs zs L.length) ∧
        Holds m' (if inplace = 0 then d else s) (if inplace = 0 then zs else xs) (L.mergeSort (leOf lt))) n
      (sortAuxP lt cut mcut s d fuel xs L.length zs inplace) m := by
  induction fuel generalizing L xs zs inplace m n with
  | zero => omega
  | succ fuel ih =>
    rw [sortAuxP]
    by_cases hc : L.length ≤ cut
    · rw [if_pos hc]
      exact safe_sortBase lt hsd L xs zs inplace m hown hX n
    · rw [if_neg hc]
      generalize hh : L.length / 2 = h
      have la : (L.take h).length = h := by rw [List.length_take]; omega
      have lb : (L.drop h).length = L.length - h := List.length_drop
      have e := Mem.only_split m (sortFoot s d xs zs h)
      rw [← e]
      generalize hni : (if inplace = 0 then 1 else 0) = ni
      have hp := fun n => ih (L.take h) xs zs ni (m.only (sortFoot s d xs zs h)) (by omega)
        (by
          rw [la]
          refine hown.only (fun l hl => ?_)
          unfold sortFoot rng at *; omega)
        ((hX.take h).only (fun i hi => by rw [la] at hi; unfold sortFoot rng; simp only [true_and]; omega)) n
      have hq := fun n => ih (L.drop h) (xs + h) (zs + h) ni (m.only (fun l => ¬ sortFoot s d xs zs h l)) (by omega)
        (by
          rw [lb]
          refine hown.rest (fun l => ?_)
          unfold sortFoot rng; omega)
        ((hX.drop h).only (fun i hi => by rw [lb] at hi; unfold sortFoot rng; simp only [true_and]; omega)) n
      rw [la] at hp
      rw [lb] at hq
      simp only [hni]
      refine safe_fork ?_ n (Mem.only_disj _ _ _) (hp n) (hq n)
      rintro r r' m1 m2 hd ⟨o1, q1⟩ ⟨o2, q2⟩ n
      have o : Own (m1.union m2) (sortFoot s d xs zs L.length) := o1.union o2 (fun l => by unfold sortFoot rng; omega)
      have sa := (isStableSort_mergeSort hlt (L.take h)).sorted
      have sb := (isStableSort_mergeSort hlt (L.drop h)).sorted
      have em : List.merge ((L.take h).mergeSort (leOf lt)) ((L.drop h).mergeSort (leOf lt)) (leOf lt) = L.mergeSort (leOf lt) := by
        rw [merge_mergeSort hlt, List.take_append_drop]
      have lma : ((L.take h).mergeSort (leOf lt)).length = h := by rw [List.length_mergeSort, la]
      have lmb : ((L.drop h).mergeSort (leOf lt)).length = L.length - h := by rw [List.length_mergeSort, lb]
      by_cases h0 : inplace = 0
      · have hni1 : ni ≠ 0 := by rw [← hni, if_pos h0]; omega
        rw [if_neg hni1, if_neg hni1] at q1 q2
        rw [if_pos h0, if_pos h0, if_neg (not_not.2 h0)]
        have ef : ∀ l, mergeFoot s d xs h (xs + h) (L.length - h) zs l ↔ sortFoot s d xs zs L.length l := by
          intro l; unfold mergeFoot sortFoot rng; omega
        have := safe_parMerge hlt mcut hmcut false hsd (L.length + 1) ((L.take h).mergeSort (leOf lt)) ((L.drop h).mergeSort (leOf lt))
          xs (xs + h) zs (m1.union m2) (by omega) sa sb (by omega)
          (by rw [lma, lmb]; intro l; rw [ef]; exact o l) q1.union_left (q2.union_right hd) n
        rw [lma, lmb] at this
        refine safe_mono ?_ this
        rintro r m' ⟨ho, hh⟩
        rw [em] at hh
        exact ⟨fun l => by rw [← ef]; exact ho l, hh⟩
      · have hni1 : ni = 0 := by rw [← hni, if_neg h0]
        rw [if_pos hni1, if_pos hni1] at q1 q2
        rw [if_neg h0, if_neg h0, if_pos h0]
        have ef : ∀ l, mergeFoot d s zs h (zs + h) (L.length - h) xs l ↔ sortFoot s d xs zs L.length l := by
          intro l; unfold mergeFoot sortFoot rng; omega
        have := safe_parMerge hlt mcut hmcut (inplace == 2) (Ne.symm hsd) (L.length + 1) ((L.take h).mergeSort (leOf lt))
          ((L.drop h).mergeSort (leOf lt)) zs (zs + h) xs (m1.union m2) (by omega) sa sb (by omega)
          (by rw [lma, lmb]; intro l; rw [ef]; exact o l) q1.union_left (q2.union_right hd) n
        rw [lma, lmb] at this
        refine safe_mono ?_ this
        rintro r m' ⟨ho, hh⟩
        rw [em] at hh
        exact ⟨fun l => by rw [← ef]; exact ho l, hh⟩

theorem arr_ofList_holds (b o : Nat) (L : List α) : Holds (arr b o (Buf.ofList L)) b o L := by
  intro i hi
  unfold arr Buf.ofList
  simp [hi]

theorem arr_ofList_own (b o : Nat) (L : List α) : Own (arr b o (Buf.ofList L)) (rng b o L.length) := by
  intro l
  unfold arr Buf.ofList rng
  by_cases h : l.1 = b ∧ o ≤ l.2 ∧ l.2 < o + L.length
  · simp [h]
  · simp [h]

theorem eq_arr_ofList {m : Mem α} {b o : Nat} {L : List α} (ho : Own m (rng b o L.length)) (hh : Holds m b o L) :
    m = arr b o (Buf.ofList L) := by
  funext l
  by_cases h : rng b o L.length l
  · obtain ⟨a, i⟩ := l
    unfold rng at h
    simp only at h
    obtain ⟨rfl, h1, h2⟩ := h
    have e1 := hh (i - o) (by omega)
    have e2 := arr_ofList_holds a o L (i - o) (by omega)
    rw [show o + (i - o) = i by omega] at e1 e2
    rw [e1, e2]
  · have h1 := not_congr (ho l)
    have h2 := not_congr (arr_ofList_own b o L l)
    simp only [ne_eq, Classical.not_not] at h1 h2
    rw [h1.2 h, h2.2 h]

theorem safe_parallelStableSort {lt : α → α → Bool} (hlt : TotalPre (leOf lt)) (cut mcut : Nat) (hcut : 1 ≤ cut) (hmcut : 2 ≤ mcut)
    (buffer : Bool) (b o : Nat) (L : List α) (n : Nat) :
    safe (fun _ m' => m' = arr b o (Buf.ofList (L.mergeSort (leOf lt)))) n
      (parallelStableSortP lt cut mcut buffer b o L.length) (arr b o (Buf.ofList L)) := by
  have ho := arr_ofList_own b o L
  have hh := arr_ofList_holds b o L
  unfold parallelStableSortP
  by_cases hb : buffer = true
  · rw [if_pos hb]
    cases L with
    | nil =>
      refine safe_alloc (fun z hz n => ?_) n
      have e : (fun l : Loc => if l.1 = z ∧ l.2 < ([] : List α).length then some none else arr b o (Buf.ofList ([] : List α)) l) =
          arr b o (Buf.ofList []) := by funext l; simp
      rw [e]
      have : sortAuxP lt cut mcut b z (([] : List α).length + 1) o ([] : List α).length 0 2 = (ret 0 : Prog α) := by
        simp [sortAuxP, sortBaseP, stdStableSortP, loadAllP, storeAllP]
      rw [this]
      refine safe_free (by simp) (fun n => safe_ret ?_ n) n
      funext l; simp
    | cons x L' =>
      generalize hL : x :: L' = L at *
      have hpos : 0 < L.length := by rw [← hL]; simp
      refine safe_alloc (fun z hz n => ?_) n
      have hzb : b ≠ z := by
        rintro rfl
        have := (ho (b, o)).2 (by unfold rng; simp only [true_and]; omega)
        exact this (hz o)
      generalize hm : (fun l : Loc => if l.1 = z ∧ l.2 < L.length then some none else arr b o (Buf.ofList L) l) = m
      have hown : Own m (sortFoot b z o 0 L.length) := by
        intro l
        rw [← hm]
        beta_reduce
        by_cases h1 : l.1 = z ∧ l.2 < L.length
        · rw [if_pos h1]; simp only [ne_eq, reduceCtorEq, not_false_eq_true, true_iff]
          unfold sortFoot rng; omega
        · rw [if_neg h1, ho l]; unfold sortFoot rng; omega
      have hX : Holds m b o L := by
        refine hh.congr (fun i hi => ?_)
        rw [← hm]; beta_reduce; rw [if_neg]; simp only; omega
      refine safe_seq ?_ n (safe_sortAux hlt cut mcut hcut hmcut hzb (L.length + 1) L o 0 2 m (by omega) hown hX n)
      rintro r m' ⟨o', h'⟩ n
      refine safe_free ?_ (fun n => safe_ret ?_ n) n
      · intro i hi
        refine (o' _).2 ?_
        unfold sortFoot rng; simp only [true_and]; omega
      · refine eq_arr_ofList ?_ ?_
        · intro l
          rw [List.length_mergeSort]
          beta_reduce
          by_cases h1 : l.1 = z ∧ l.2 < L.length
          · rw [if_pos h1]; unfold rng; simp only [ne_eq, not_true_eq_false, false_iff]; omega
          · rw [if_neg h1, o' l]; unfold sortFoot rng; omega
        · simp only [if_neg (show ¬ (2 : Nat) = 0 by omega)] at h'
          refine h'.congr (fun i hi => ?_)
          rw [if_neg]; simp only; omega
  · rw [if_neg hb]
    refine safe_stdStableSort lt L o _ _ _ hh (fun m' hd ha hh' n => safe_ret ?_ n) n
    refine eq_arr_ofList ?_ hh'
    rw [List.length_mergeSort]
    exact hd.own ho

end Gsb
