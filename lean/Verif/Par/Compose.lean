import Verif.Par.Seq
/-
The converse of `allSchedules_of_safe`: a program that behaves on every schedule when it has the memory to itself is
safe next to anything that uses other memory.  With it, statements about all schedules compose.
-/
namespace Gsb
variable {T : Type}

/-- Nothing allocated. -/
def Mem.empty : Mem T := fun _ => none

theorem Mem.union_empty (m : Mem T) : m.union Mem.empty = m := by
  funext l; unfold Mem.union Mem.empty; cases m l <;> rfl

theorem Mem.empty_union (m : Mem T) : Mem.empty.union m = m := rfl

theorem disj_empty (m : Mem T) : Disj m Mem.empty := fun _ => .inr rfl

theorem empty_disj (m : Mem T) : Disj Mem.empty m := fun _ => .inl rfl

theorem finiteMem_empty : FiniteMem (Mem.empty : Mem T) := ⟨0, fun _ _ _ => rfl⟩

/-- An access outside the memory is undefined. -/
theorem fault_of_next {p : Prog T} {a : Action} (h : Next p a) {m : Mem T} {l : Loc} (ht : a.touches l) (hl : m l = none) :
    Fault p m := by
  induction h with
  | load => exact .load (fun v hv => by have : l = _ := ht; subst this; rw [hl] at hv; cases hv)
  | store => exact .store (by have : l = _ := ht; subst this; exact hl)
  | free =>
    obtain ⟨h1, h2⟩ : l.1 = _ ∧ l.2 < _ := ht
    subst h1
    exact .free h2 hl
  | left _ ih => exact .left (ih ht)
  | right _ ih => exact .right (ih ht)

/-- More memory does not make anything undefined. -/
theorem fault_union {p : Prog T} {m F : Mem T} (h : Fault p (m.union F)) : Fault p m := by
  generalize e : m.union F = u at h
  induction h with
  | fail => exact .fail
  | load h =>
    subst e
    refine .load (fun v hv => h v ?_)
    rw [Mem.union_left (by rw [hv]; simp), hv]
  | store h => subst e; exact .store (Mem.union_none.1 h).1
  | free hi h => subst e; exact .free hi (Mem.union_none.1 h).1
  | left _ ih => exact .left (ih e)
  | right _ ih => exact .right (ih e)

/-- A step next to other memory is a step without it. -/
theorem step_union {p : Prog T} {m F : Mem T} (hd : Disj m F) (hn : ¬ Fault p m) {s : Prog T × Mem T} (h : Step (p, m.union F) s) :
    ∃ m1, s.2 = m1.union F ∧ Disj m1 F ∧ Step (p, m) (s.1, m1) := by
  generalize e : (p, m.union F) = t at h
  induction h generalizing p with
  | load hv =>
    rename_i l k m0 v
    cases e
    have hl : m l ≠ none := fun h => hn (.load (fun v hv => by rw [h] at hv; cases hv))
    rw [Mem.union_left hl] at hv
    exact ⟨m, rfl, hd, .load hv⟩
  | store hl =>
    rename_i l v k m0
    cases e
    have hl : m l ≠ none := fun h => hn (.store h)
    refine ⟨fun l' => if l' = l then some v else m l', ?_, ?_, .store hl⟩
    · funext l'
      show (if l' = l then some v else m.union F l') = _
      by_cases e : l' = l
      · rw [if_pos e, Mem.union_left (by simp [e])]; simp [e]
      · rw [if_neg e]
        by_cases hm : m l' = none
        · rw [Mem.union_right hm, Mem.union_right (by simp [e, hm])]
        · rw [Mem.union_left hm, Mem.union_left (by simp [e, hm])]; simp [e]
    · intro l'
      by_cases e : l' = l
      · subst e
        rcases hd l' with h' | h'
        · exact absurd h' hl
        · exact Or.inr h'
      · simpa [e] using hd l'
  | alloc b hb =>
    rename_i cnt v k m0
    cases e
    refine ⟨fun l => if l.1 = b ∧ l.2 < cnt then some v else m l, ?_, ?_, .alloc b (fun i => (Mem.union_none.1 (hb i)).1)⟩
    · funext l
      show (if l.1 = b ∧ l.2 < cnt then some v else m.union F l) = _
      by_cases e : l.1 = b ∧ l.2 < cnt
      · rw [if_pos e, Mem.union_left (by simp [e])]; simp [e]
      · rw [if_neg e]
        by_cases hm : m l = none
        · rw [Mem.union_right hm, Mem.union_right (by simp only [e, if_false]; exact hm)]
        · rw [Mem.union_left hm, Mem.union_left (by simp only [e, if_false]; exact hm)]; simp only [e, if_false]
    · intro l
      by_cases e : l.1 = b ∧ l.2 < cnt
      · right
        have : l = (b, l.2) := by rw [← e.1]
        rw [this]; exact (Mem.union_none.1 (hb _)).2
      · simp only [e, if_false]; exact hd l
  | free hl =>
    rename_i b cnt k m0
    cases e
    have hl : ∀ i, i < cnt → m (b, i) ≠ none := fun i hi h => hn (.free hi h)
    have hl' : ∀ l : Loc, l.1 = b ∧ l.2 < cnt → m l ≠ none := by
      rintro ⟨x, y⟩ ⟨rfl, h2⟩; exact hl y h2
    refine ⟨fun l => if l.1 = b ∧ l.2 < cnt then none else m l, ?_, ?_, .free hl⟩
    · funext l
      show (if l.1 = b ∧ l.2 < cnt then none else m.union F l) = _
      by_cases e : l.1 = b ∧ l.2 < cnt
      · rw [if_pos e, Mem.union_right (by simp only [e, and_self, if_true])]
        rcases hd l with h' | h'
        · exact absurd h' (hl' l e)
        · exact h'.symm
      · rw [if_neg e]
        by_cases hm : m l = none
        · rw [Mem.union_right hm, Mem.union_right (by simp only [e, if_false]; exact hm)]
        · rw [Mem.union_left hm, Mem.union_left (by simp only [e, if_false]; exact hm)]; simp only [e, if_false]
    · intro l
      by_cases e : l.1 = b ∧ l.2 < cnt
      · left; simp only [e, and_self, if_true]
      · simp only [e, if_false]; exact hd l
  | left h ih =>
    cases e
    obtain ⟨m1, h1, h2, h3⟩ := ih (fun h => hn (.left h)) rfl
    exact ⟨m1, h1, h2, .left h3⟩
  | right h ih =>
    cases e
    obtain ⟨m1, h1, h2, h3⟩ := ih (fun h => hn (.right h)) rfl
    exact ⟨m1, h1, h2, .right h3⟩
  | join =>
    cases e
    exact ⟨m, rfl, hd, .join⟩

theorem Reach.head {s t u : Prog T × Mem T} (h : Step s t) (hr : Reach t u) : Reach s u := by
  induction hr with
  | refl => exact .tail .refl h
  | tail _ h' ih => exact .tail ih h'

theorem Reach.trans {s t u : Prog T × Mem T} (h : Reach s t) (h' : Reach t u) : Reach s u := by
  induction h' with
  | refl => exact h
  | tail _ h2 ih => exact .tail ih h2

theorem AllSchedules.step {p p' : Prog T} {m m1 m' : Mem T} (h : AllSchedules p m m') (hs : Step (p, m) (p', m1)) :
    AllSchedules p' m1 m' where
  noRace s hr := h.noRace s (.head hs hr)
  noFault s hr := h.noFault s (.head hs hr)
  result r f hr := h.result r f (.head hs hr)
  progress s hr := h.progress s (.head hs hr)
  terminates := h.terminates.inv hs

/-- A program that behaves on every schedule owns what it uses. -/
theorem safe_of_allSchedules (n : Nat) {p : Prog T} {m m' : Mem T} (h : AllSchedules p m m') :
    safe (fun _ f => f = m') n p m := by
  induction n generalizing p m with
  | zero => trivial
  | succ n ih =>
    have hn : ¬ Fault p m := h.noFault _ .refl
    refine ⟨?_, ?_, h.noRace _ .refl, fun F _ hf => hn (fault_union hf), ?_⟩
    · intro r e; subst e; exact h.result r m .refl
    · intro a ha l ht hl; exact hn (fault_of_next ha ht hl)
    · intro F s hF hs
      obtain ⟨m1, h1, h2, h3⟩ := step_union hF hn hs
      exact ⟨m1, h1, h2, ih (h.step h3)⟩

/-! ### Two runs of one program -/

theorem Reach.left {p p' q : Prog T} {k : Nat → Prog T} {m m' : Mem T} (h : Reach (p, m) (p', m')) :
    Reach (.fork p q k, m) (.fork p' q k, m') := by
  generalize e : (p, m) = s at h
  generalize e' : (p', m') = t at h
  induction h generalizing p' m' with
  | refl => subst e; cases e'; exact .refl
  | tail h hs ih =>
    rename_i t u
    subst e'
    exact .tail (ih (p' := t.1) (m' := t.2) rfl) (.left hs)

theorem Reach.right {p q q' : Prog T} {k : Nat → Prog T} {m m' : Mem T} (h : Reach (q, m) (q', m')) :
    Reach (.fork p q k, m) (.fork p q' k, m') := by
  generalize e : (q, m) = s at h
  generalize e' : (q', m') = t at h
  induction h generalizing q' m' with
  | refl => subst e; cases e'; exact .refl
  | tail h hs ih =>
    rename_i t u
    subst e'
    exact .tail (ih (q' := t.1) (m' := t.2) rfl) (.right hs)

/-- Programs that do not allocate stay so. -/
theorem Foot.step {F : Loc → Prop} {s t : Prog T × Mem T} (h : Step s t) : Foot F s.1 → Foot F t.1 := by
  induction h with
  | load _ => exact fun h => h.2 _
  | store _ => exact fun h => h.2
  | alloc _ _ => exact False.elim
  | free _ => exact False.elim
  | left _ ih => exact fun h => ⟨ih h.1, h.2⟩
  | right _ ih => exact fun h => ⟨h.1, ih h.2.1, h.2.2⟩
  | join => exact fun h => h.2.2 _

/-- A step that changes the memory is a write. -/
theorem write_of_step {F : Loc → Prop} {s t : Prog T × Mem T} (h : Step s t) :
    Foot F s.1 → t.2 ≠ s.2 → ∃ l, Next s.1 (.write l) := by
  induction h with
  | load _ => exact fun _ h => absurd rfl h
  | store _ => exact fun _ _ => ⟨_, .store⟩
  | alloc _ _ => exact fun h => h.elim
  | free _ => exact fun h => h.elim
  | left _ ih => exact fun h h' => (ih h.1 h').imp fun _ => .left
  | right _ ih => exact fun h h' => (ih h.2.1 h').imp fun _ => .right
  | join => exact fun _ h => absurd rfl h

/-- Before anything changes, there is a write about to happen. -/
theorem reach_write {F : Loc → Prop} {p : Prog T} {m : Mem T} (hf : Foot F p) {t : Prog T × Mem T} (h : Reach (p, m) t)
    (hne : t.2 ≠ m) : ∃ p' l, Reach (p, m) (p', m) ∧ Next p' (.write l) := by
  have foot : ∀ t, Reach (p, m) t → Foot F t.1 := by
    intro t ht
    generalize e : (p, m) = s at ht
    induction ht with
    | refl => subst e; exact hf
    | tail _ hs ih => exact Foot.step hs ih
  generalize e : (p, m) = s at h
  induction h with
  | refl => subst e; exact absurd rfl hne
  | tail hr hs ih =>
    rename_i t u
    subst e
    by_cases h : t.2 = m
    · have h2 : Reach (p, m) (t.1, m) := by rw [← h] at hr ⊢; exact hr
      have h3 : u.2 ≠ t.2 := by rw [h]; exact hne
      obtain ⟨l, hl⟩ := write_of_step hs (foot _ hr) h3
      exact ⟨_, l, h2, hl⟩
    · exact ih h

/-- Two runs at the same time of a program that changes memory it did not allocate, on the same memory, race. -/
theorem race_with_itself {F : Loc → Prop} {p : Prog T} {k : Nat → Prog T} {m : Mem T} (hf : Foot F p) {t : Prog T × Mem T}
    (h : Reach (p, m) t) (hne : t.2 ≠ m) : ∃ s, Reach (.fork p p k, m) s ∧ Race s.1 := by
  obtain ⟨p', l, h1, h2⟩ := reach_write hf h hne
  refine ⟨_, Reach.trans (Reach.left h1) (Reach.right h1), .here h2 h2 ⟨⟨l, rfl, rfl⟩, ?_⟩⟩
  rintro ⟨⟨_, h⟩, -⟩
  cases h

end Gsb
