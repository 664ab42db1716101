import Verif.Par.Lang
/-
Soundness of local reasoning about fork/join programs: a thread that only touches memory it owns cannot be disturbed.
-/
namespace Gsb
variable {T : Type}

namespace Mem

theorem union_left {m m' : Mem T} {l : Loc} (h : m l ≠ none) : m.union m' l = m l := by
  unfold union; cases hm : m l with
  | none => exact absurd hm h
  | some c => rfl

theorem union_right {m m' : Mem T} {l : Loc} (h : m l = none) : m.union m' l = m' l := by
  unfold union; rw [h]

theorem union_none {m m' : Mem T} {l : Loc} : m.union m' l = none ↔ m l = none ∧ m' l = none := by
  unfold union; cases hm : m l with
  | none => simp
  | some c => simp

theorem union_comm {m m' : Mem T} (h : Disj m m') : m.union m' = m'.union m := by
  funext l
  rcases h l with h | h
  · rw [union_right h]
    by_cases h' : m' l = none
    · rw [union_right h', h, h']
    · rw [union_left h']
  · rw [union_right (m := m') h]
    by_cases h' : m l = none
    · rw [union_right h', h, h']
    · rw [union_left h']

theorem union_assoc (a b c : Mem T) : (a.union b).union c = a.union (b.union c) := by
  funext l; unfold union; cases h : a l with
  | none => rfl
  | some x => rfl

end Mem

theorem Disj.symm {m m' : Mem T} (h : Disj m m') : Disj m' m := fun l => (h l).symm

theorem disj_union {a b c : Mem T} : Disj (a.union b) c ↔ Disj a c ∧ Disj b c := by
  constructor
  · intro h
    constructor <;> intro l <;> rcases h l with h | h
    · exact Or.inl (Mem.union_none.1 h).1
    · exact Or.inr h
    · exact Or.inl (Mem.union_none.1 h).2
    · exact Or.inr h
  · rintro ⟨h1, h2⟩ l
    rcases h1 l with h | h
    · rcases h2 l with h' | h'
      · exact Or.inl (Mem.union_none.2 ⟨h, h'⟩)
      · exact Or.inr h'
    · exact Or.inr h

theorem disj_union_right {a b c : Mem T} : Disj a (b.union c) ↔ Disj a b ∧ Disj a c := by
  constructor
  · intro h; have := disj_union.1 h.symm; exact ⟨this.1.symm, this.2.symm⟩
  · rintro ⟨h1, h2⟩; exact (disj_union.2 ⟨h1.symm, h2.symm⟩).symm

/-- `n` steps of `p`, owning exactly `m`, are safe against any environment, and if `p` finishes in them `Q` holds. -/
def safe (Q : Nat → Mem T → Prop) : Nat → Prog T → Mem T → Prop
  | 0, _, _ => True
  | n + 1, p, m =>
    (∀ r, p = .ret r → Q r m) ∧
    (∀ a, Next p a → ∀ l, a.touches l → m l ≠ none) ∧
    ¬ Race p ∧
    (∀ F, Disj m F → ¬ Fault p (m.union F)) ∧
    (∀ F s, Disj m F → Step (p, m.union F) s → ∃ m', s.2 = m'.union F ∧ Disj m' F ∧ safe Q n s.1 m')

theorem safe_ret {Q : Nat → Mem T → Prop} {r : Nat} {m : Mem T} (h : Q r m) (n : Nat) : safe Q n (.ret r) m := by
  cases n with
  | zero => trivial
  | succ n =>
    refine ⟨?_, ?_, ?_, ?_, ?_⟩
    · intro r' e; cases e; exact h
    · intro a ha; cases ha
    · intro h; cases h
    · intro F _ h; cases h
    · intro F s _ h; cases h

theorem safe_mono {Q Q' : Nat → Mem T → Prop} (hQ : ∀ r m, Q r m → Q' r m) {n : Nat} {p : Prog T} {m : Mem T}
    (h : safe Q n p m) : safe Q' n p m := by
  induction n generalizing p m with
  | zero => trivial
  | succ n ih =>
    obtain ⟨h1, h2, h3, h4, h5⟩ := h
    refine ⟨fun r e => hQ r m (h1 r e), h2, h3, h4, fun F s hF hs => ?_⟩
    obtain ⟨m', e, d, s'⟩ := h5 F s hF hs
    exact ⟨m', e, d, ih s'⟩

theorem safe_load {Q : Nat → Mem T → Prop} {l : Loc} {k : T → Prog T} {m : Mem T} {v : T} (hl : m l = some (some v))
    (h : ∀ n, safe Q n (k v) m) (n : Nat) : safe Q n (.load l k) m := by
  cases n with
  | zero => trivial
  | succ n =>
    have hne : m l ≠ none := by rw [hl]; simp
    refine ⟨(by intro r e; cases e), ?_, (by intro h; cases h), ?_, ?_⟩
    · intro a ha l' ht
      cases ha
      have : l' = l := ht
      rw [this]; exact hne
    · intro F _ hf
      cases hf with
      | load hf => exact hf v (by rw [Mem.union_left hne, hl])
    · intro F s hF hs
      cases hs with
      | load hv =>
        rw [Mem.union_left hne, hl] at hv
        cases hv
        exact ⟨m, rfl, hF, h n⟩

theorem safe_store {Q : Nat → Mem T → Prop} {l : Loc} {v : Option T} {k : Prog T} {m : Mem T} (hl : m l ≠ none)
    (h : ∀ n, safe Q n k (fun l' => if l' = l then some v else m l')) (n : Nat) : safe Q n (.store l v k) m := by
  cases n with
  | zero => trivial
  | succ n =>
    refine ⟨(by intro r e; cases e), ?_, (by intro h; cases h), ?_, ?_⟩
    · intro a ha l' ht
      cases ha
      have : l' = l := ht
      rw [this]; exact hl
    · intro F _ hf
      cases hf with
      | store hf => exact hl (Mem.union_none.1 hf).1
    · intro F s hF hs
      cases hs with
      | store _ =>
        refine ⟨_, ?_, ?_, h n⟩
        · funext l'
          show (if l' = l then some v else m.union F l') = _
          by_cases e : l' = l
          · subst e
            rw [if_pos rfl, Mem.union_left (by simp)]; simp
          · rw [if_neg e]
            by_cases hm : m l' = none
            · rw [Mem.union_right hm, Mem.union_right (by simp [e, hm])]
            · rw [Mem.union_left hm, Mem.union_left (by simp [e, hm])]; simp [e]
        · intro l'
          by_cases e : l' = l
          · subst e
            rcases hF l' with h' | h'
            · exact absurd h' hl
            · exact Or.inr h'
          · simpa [e] using hF l'

theorem safe_alloc {Q : Nat → Mem T → Prop} {cnt : Nat} {v : Option T} {k : Nat → Prog T} {m : Mem T}
    (h : ∀ b, (∀ i, m (b, i) = none) → ∀ n, safe Q n (k b) (fun l => if l.1 = b ∧ l.2 < cnt then some v else m l)) (n : Nat) :
    safe Q n (.alloc cnt v k) m := by
  cases n with
  | zero => trivial
  | succ n =>
    refine ⟨(by intro r e; cases e), (by intro a ha; cases ha), (by intro h; cases h), ?_, ?_⟩
    · intro F _ hf
      cases hf
    · intro F s hF hs
      cases hs with
      | alloc b hb =>
        refine ⟨_, ?_, ?_, h b (fun i => (Mem.union_none.1 (hb i)).1) n⟩
        · funext l
          show (if l.1 = b ∧ l.2 < cnt then some v else m.union F l) = _
          by_cases e : l.1 = b ∧ l.2 < cnt
          · rw [if_pos e, Mem.union_left (by simp [e])]; simp [e]
          · rw [if_neg e]
            by_cases hm : m l = none
            · rw [Mem.union_right hm, Mem.union_right (by simp only [e, if_false]; exact hm)]
            · rw [Mem.union_left hm, Mem.union_left (by simp only [e, if_false]; exact hm)]; simp only [e, if_false]
        · intro l
          by_cases e : l.1 = b ∧ l.2 < cnt
          · right
            have : l = (b, l.2) := by rw [← e.1]
            rw [this]; exact (Mem.union_none.1 (hb _)).2
          · simp only [e, if_false]; exact hF l

theorem safe_free {Q : Nat → Mem T → Prop} {b cnt : Nat} {k : Prog T} {m : Mem T} (hl : ∀ i, i < cnt → m (b, i) ≠ none)
    (h : ∀ n, safe Q n k (fun l => if l.1 = b ∧ l.2 < cnt then none else m l)) (n : Nat) : safe Q n (.free b cnt k) m := by
  cases n with
  | zero => trivial
  | succ n =>
    have hl' : ∀ l : Loc, l.1 = b ∧ l.2 < cnt → m l ≠ none := by
      rintro ⟨x, y⟩ ⟨rfl, h2⟩; exact hl y h2
    refine ⟨(by intro r e; cases e), ?_, (by intro h; cases h), ?_, ?_⟩
    · intro a ha l' ht
      cases ha
      exact hl' l' ht
    · intro F _ hf
      cases hf with
      | free hi hf => exact hl _ hi (Mem.union_none.1 hf).1
    · intro F s hF hs
      cases hs with
      | free _ =>
        refine ⟨_, ?_, ?_, h n⟩
        · funext l
          show (if l.1 = b ∧ l.2 < cnt then none else m.union F l) = _
          by_cases e : l.1 = b ∧ l.2 < cnt
          · rw [if_pos e, Mem.union_right (by simp only [e, and_self, if_true])]
            rcases hF l with h' | h'
            · exact absurd h' (hl' l e)
            · exact h'.symm
          · rw [if_neg e]
            by_cases hm : m l = none
            · rw [Mem.union_right hm, Mem.union_right (by simp only [e, if_false]; exact hm)]
            · rw [Mem.union_left hm, Mem.union_left (by simp only [e, if_false]; exact hm)]; simp only [e, if_false]
        · intro l
          by_cases e : l.1 = b ∧ l.2 < cnt
          · left; simp only [e, and_self, if_true]
          · simp only [e, if_false]; exact hF l

/-- Parallel composition: the two sides own disjoint memory. -/
theorem safe_fork {Qp Qq Q : Nat → Mem T → Prop} {k : Nat → Prog T}
    (hk : ∀ r r' m1 m2, Disj m1 m2 → Qp r m1 → Qq r' m2 → ∀ n, safe Q n (k r') (m1.union m2)) (n : Nat)
    {p q : Prog T} {m1 m2 : Mem T} (hd : Disj m1 m2) (hp : safe Qp n p m1) (hq : safe Qq n q m2) :
    safe Q n (.fork p q k) (m1.union m2) := by
  induction n generalizing p q m1 m2 with
  | zero => trivial
  | succ n ih =>
    obtain ⟨p1, p2, p3, p4, p5⟩ := hp
    obtain ⟨q1, q2, q3, q4, q5⟩ := hq
    refine ⟨(by intro r e; cases e), ?_, ?_, ?_, ?_⟩
    · intro a ha l ht hn
      have := Mem.union_none.1 hn
      cases ha with
      | left ha => exact p2 a ha l ht this.1
      | right ha => exact q2 a ha l ht this.2
    · intro hr
      cases hr with
      | here ha hb hc =>
        obtain ⟨⟨l, h1, h2⟩, -⟩ := hc
        rcases hd l with h | h
        · exact p2 _ ha l h1 h
        · exact q2 _ hb l h2 h
      | left hr => exact p3 hr
      | right hr => exact q3 hr
    · intro F hF hf
      obtain ⟨d1, d2⟩ := disj_union.1 hF
      cases hf with
      | left hf =>
        rw [Mem.union_assoc] at hf
        exact p4 _ (disj_union_right.2 ⟨hd, d1⟩) hf
      | right hf =>
        rw [Mem.union_comm hd, Mem.union_assoc] at hf
        exact q4 _ (disj_union_right.2 ⟨hd.symm, d2⟩) hf
    · intro F s hF hs
      obtain ⟨d1, d2⟩ := disj_union.1 hF
      cases hs with
      | left hs =>
        rw [Mem.union_assoc] at hs
        obtain ⟨m', e, d, hs'⟩ := p5 _ _ (disj_union_right.2 ⟨hd, d1⟩) hs
        obtain ⟨d3, d4⟩ := disj_union_right.1 d
        refine ⟨m'.union m2, ?_, disj_union.2 ⟨d4, d2⟩, ih d3 hs' ?_⟩
        · rw [Mem.union_assoc]; exact e
        · exact safe_le' ⟨q1, q2, q3, q4, q5⟩
      | right hs =>
        rw [Mem.union_comm hd, Mem.union_assoc] at hs
        obtain ⟨m', e, d, hs'⟩ := q5 _ _ (disj_union_right.2 ⟨hd.symm, d2⟩) hs
        obtain ⟨d3, d4⟩ := disj_union_right.1 d
        refine ⟨m1.union m', ?_, disj_union.2 ⟨d1, d4⟩, ih d3.symm ?_ hs'⟩
        · rw [Mem.union_comm d3.symm, Mem.union_assoc]; exact e
        · exact safe_le' ⟨p1, p2, p3, p4, p5⟩
      | join => exact ⟨m1.union m2, rfl, hF, hk _ _ _ _ hd (p1 _ rfl) (q1 _ rfl) n⟩
where
  safe_le' {Q : Nat → Mem T → Prop} {n : Nat} {p : Prog T} {m : Mem T} (h : safe Q (n + 1) p m) : safe Q n p m := by
    induction n generalizing p m with
    | zero => trivial
    | succ n ih =>
      obtain ⟨h1, h2, h3, h4, h5⟩ := h
      refine ⟨h1, h2, h3, h4, fun F s hF hs => ?_⟩
      obtain ⟨m', e, d, s'⟩ := h5 F s hF hs
      exact ⟨m', e, d, ih s'⟩

section
variable {p : Prog T} {q : Nat → Prog T} (hp : ∀ r, p ≠ .ret r)
include hp

theorem seq_ne_ret (r : Nat) : p.seq q ≠ .ret r := by
  cases p with
  | ret r' => exact absurd rfl (hp r')
  | _ => intro h; cases h

theorem next_seq {a : Action} (h : Next (p.seq q) a) : Next p a := by
  cases p with
  | ret r' => exact absurd rfl (hp r')
  | fail e => cases h
  | load l k => cases h; exact .load
  | store l v k => cases h; exact .store
  | alloc c v k => cases h
  | free b c k => cases h; exact .free
  | fork a b k =>
    cases h with
    | left h => exact .left h
    | right h => exact .right h

theorem race_seq (h : Race (p.seq q)) : Race p := by
  cases p with
  | ret r' => exact absurd rfl (hp r')
  | fork a b k =>
    cases h with
    | here h1 h2 h3 => exact .here h1 h2 h3
    | left h => exact .left h
    | right h => exact .right h
  | _ => cases h

theorem fault_seq {m : Mem T} (h : Fault (p.seq q) m) : Fault p m := by
  cases p with
  | ret r' => exact absurd rfl (hp r')
  | fail e => exact .fail
  | load l k => cases h with | load h => exact .load h
  | store l v k => cases h with | store h => exact .store h
  | alloc c v k => cases h
  | free b c k => cases h with | free h1 h2 => exact .free h1 h2
  | fork a b k =>
    cases h with
    | left h => exact .left h
    | right h => exact .right h

theorem step_seq {m : Mem T} {s : Prog T × Mem T} (h : Step (p.seq q, m) s) :
    ∃ p', Step (p, m) (p', s.2) ∧ s.1 = p'.seq q := by
  cases p with
  | ret r' => exact absurd rfl (hp r')
  | fail e => cases h
  | load l k => cases h with | load h => exact ⟨_, .load h, rfl⟩
  | store l v k => cases h with | store h => exact ⟨_, .store h, rfl⟩
  | alloc c v k => cases h with | alloc b h => exact ⟨_, .alloc b h, rfl⟩
  | free b c k => cases h with | free h => exact ⟨_, .free h, rfl⟩
  | fork a b k =>
    cases h with
    | left h => exact ⟨_, .left h, rfl⟩
    | right h => exact ⟨_, .right h, rfl⟩
    | join => exact ⟨_, .join, rfl⟩

end

/-- Sequential composition. -/
theorem safe_seq {Q Q' : Nat → Mem T → Prop} {q : Nat → Prog T} (hq : ∀ r m, Q r m → ∀ n, safe Q' n (q r) m) (n : Nat)
    {p : Prog T} {m : Mem T} (hp : safe Q n p m) : safe Q' n (p.seq q) m := by
  induction n generalizing p m with
  | zero => trivial
  | succ n ih =>
    by_cases h : ∃ r, p = .ret r
    · obtain ⟨r, rfl⟩ := h
      exact hq r m (hp.1 r rfl) (n + 1)
    · have hn : ∀ r, p ≠ .ret r := fun r e => h ⟨r, e⟩
      obtain ⟨-, h2, h3, h4, h5⟩ := hp
      refine ⟨fun r e => absurd e (seq_ne_ret hn r), fun a ha => h2 a (next_seq hn ha), fun hr => h3 (race_seq hn hr),
        fun F hF hf => h4 F hF (fault_seq hn hf), fun F s hF hs => ?_⟩
      obtain ⟨p', hs', e⟩ := step_seq hn hs
      obtain ⟨m', e', d, hs''⟩ := h5 F _ hF hs'
      exact ⟨m', e', d, by rw [e]; exact ih hs''⟩

/-- What a program does not own it does not change. -/
theorem safe_frame {Q : Nat → Mem T → Prop} {G : Mem T} (n : Nat) {p : Prog T} {m : Mem T} (hd : Disj m G) (hp : safe Q n p m) :
    safe (fun r m' => ∃ m0, m' = m0.union G ∧ Disj m0 G ∧ Q r m0) n p (m.union G) := by
  induction n generalizing p m with
  | zero => trivial
  | succ n ih =>
    obtain ⟨h1, h2, h3, h4, h5⟩ := hp
    refine ⟨fun r e => ⟨m, rfl, hd, h1 r e⟩, fun a ha l ht hn => h2 a ha l ht (Mem.union_none.1 hn).1, h3, ?_, ?_⟩
    · intro F hF hf
      rw [Mem.union_assoc] at hf
      exact h4 _ (disj_union_right.2 ⟨hd, (disj_union.1 hF).1⟩) hf
    · intro F s hF hs
      rw [Mem.union_assoc] at hs
      obtain ⟨m', e, d, hs'⟩ := h5 _ _ (disj_union_right.2 ⟨hd, (disj_union.1 hF).1⟩) hs
      obtain ⟨d1, d2⟩ := disj_union_right.1 d
      exact ⟨m'.union G, by rw [Mem.union_assoc]; exact e, disj_union.2 ⟨d2, (disj_union.1 hF).2⟩, ih d1 hs'⟩

/-! ### Termination -/

/-- A step, forgetting the memory. -/
def PStep (p' p : Prog T) : Prop := ∃ m m', Step (p, m) (p', m')

theorem acc_fork {p q : Prog T} {k : Nat → Prog T} (hp : Acc PStep p) (hq : Acc PStep q) (hk : ∀ r, Acc PStep (k r)) :
    Acc PStep (.fork p q k) := by
  induction hp generalizing q with
  | intro p hp ihp =>
    induction hq with
    | intro q hq ihq =>
      constructor
      rintro s ⟨m, m', h⟩
      cases h with
      | left h => exact ihp _ ⟨m, m', h⟩ ⟨q, hq⟩
      | right h => exact ihq _ ⟨m, m', h⟩
      | join => exact hk _

theorem acc_prog (p : Prog T) : Acc PStep p := by
  induction p with
  | ret r => constructor; rintro s ⟨m, m', h⟩; cases h
  | fail e => constructor; rintro s ⟨m, m', h⟩; cases h
  | load l k ih => constructor; rintro s ⟨m, m', h⟩; cases h; exact ih _
  | store l v k ih => constructor; rintro s ⟨m, m', h⟩; cases h; exact ih
  | alloc c v k ih => constructor; rintro s ⟨m, m', h⟩; cases h; exact ih _
  | free b c k ih => constructor; rintro s ⟨m, m', h⟩; cases h; exact ih
  | fork a b k iha ihb ihk => exact acc_fork iha ihb ihk

theorem acc_step (p : Prog T) (m : Mem T) : Acc (fun s' s : Prog T × Mem T => Step s s') (p, m) := by
  have : Subrelation (fun s' s : Prog T × Mem T => Step s s') (InvImage PStep Prod.fst) := by
    rintro ⟨p', m'⟩ ⟨p, m⟩ h
    exact ⟨m, m', h⟩
  exact Subrelation.accessible this (InvImage.accessible _ (acc_prog p))

/-! ### Progress -/

theorem step_or_fault (p : Prog T) (m : Mem T) (hm : FiniteMem m) :
    (∃ r, p = .ret r) ∨ Fault p m ∨ ∃ s, Step (p, m) s := by
  induction p with
  | ret r => exact Or.inl ⟨r, rfl⟩
  | fail e => exact Or.inr (Or.inl .fail)
  | load l k =>
    right
    by_cases h : ∃ v, m l = some (some v)
    · obtain ⟨v, h⟩ := h; exact Or.inr ⟨_, .load h⟩
    · exact Or.inl (.load (fun v hv => h ⟨v, hv⟩))
  | store l v k =>
    right
    by_cases h : m l = none
    · exact Or.inl (.store h)
    · exact Or.inr ⟨_, .store h⟩
  | alloc c v k =>
    obtain ⟨B, hB⟩ := hm
    exact Or.inr (Or.inr ⟨_, .alloc B (fun i => hB B i (Nat.le_refl _))⟩)
  | free b c k =>
    right
    by_cases h : ∃ i, i < c ∧ m (b, i) = none
    · obtain ⟨i, h1, h2⟩ := h; exact Or.inl (.free h1 h2)
    · exact Or.inr ⟨_, .free (fun i hi hn => h ⟨i, hi, hn⟩)⟩
  | fork a b k iha ihb _ =>
    rcases iha with ⟨r, rfl⟩ | h | ⟨s, h⟩
    · rcases ihb with ⟨r', rfl⟩ | h | ⟨s, h⟩
      · exact Or.inr (Or.inr ⟨_, .join⟩)
      · exact Or.inr (Or.inl (.right h))
      · exact Or.inr (Or.inr ⟨_, .right h⟩)
    · exact Or.inr (Or.inl (.left h))
    · exact Or.inr (Or.inr ⟨_, .left h⟩)

theorem finiteMem_step {s s' : Prog T × Mem T} (h : Step s s') : FiniteMem s.2 → FiniteMem s'.2 := by
  induction h with
  | load h => exact id
  | store h =>
    rename_i l v k m
    rintro ⟨B, hB⟩
    refine ⟨B, fun b i hb => ?_⟩
    show (if (b, i) = l then _ else _) = none
    rw [if_neg]
    · exact hB b i hb
    · intro e; rw [← e] at h; exact h (hB b i hb)
  | alloc b h =>
    rename_i c v k m
    rintro ⟨B, hB⟩
    refine ⟨max B (b + 1), fun b' i hb => ?_⟩
    show (if b' = b ∧ i < c then some v else m (b', i)) = none
    rw [if_neg (by omega)]
    exact hB b' i (by omega)
  | free h =>
    rename_i b c k m
    rintro ⟨B, hB⟩
    refine ⟨B, fun b' i hb => ?_⟩
    show (if b' = b ∧ i < c then none else m (b', i)) = none
    split
    · rfl
    · exact hB b' i hb
  | left h ih => exact ih
  | right h ih => exact ih
  | join => exact id

/-! ### Adequacy -/

theorem safe_reach {Q : Nat → Mem T → Prop} {p : Prog T} {m F : Mem T} (hd : Disj m F) (h : ∀ n, safe Q n p m)
    {s : Prog T × Mem T} (hr : Reach (p, m.union F) s) : ∀ n, ∃ m', s.2 = m'.union F ∧ Disj m' F ∧ safe Q n s.1 m' := by
  generalize hs0 : (p, m.union F) = s0 at hr
  induction hr with
  | refl => subst hs0; exact fun n => ⟨m, rfl, hd, h n⟩
  | tail hr hs ih =>
    rename_i t u
    intro n
    obtain ⟨m', e, d, hs'⟩ := ih (n + 1)
    have hst : Step (t.1, m'.union F) u := by rw [← e]; exact hs
    exact hs'.2.2.2.2 F u d hst

/-- From local safety to all schedules, in any environment memory `F`. -/
theorem allSchedules_of_safe {p : Prog T} {m m' F : Mem T} (hd : Disj m F) (hf : FiniteMem (m.union F))
    (h : ∀ n, safe (fun _ x => x = m') n p m) : AllSchedules p (m.union F) (m'.union F) := by
  have fin : ∀ s, Reach (p, m.union F) s → FiniteMem s.2 := by
    intro s hr
    generalize hs0 : (p, m.union F) = s0 at hr
    induction hr with
    | refl => subst hs0; exact hf
    | tail hr hs ih => exact finiteMem_step hs ih
  refine ⟨?_, ?_, ?_, ?_, acc_step _ _⟩
  · intro s hr
    obtain ⟨m1, e, d, hs⟩ := safe_reach hd h hr 1
    exact hs.2.2.1
  · intro s hr
    obtain ⟨m1, e, d, hs⟩ := safe_reach hd h hr 1
    rw [e]; exact hs.2.2.2.1 F d
  · intro r f hr
    obtain ⟨m1, e, d, hs⟩ := safe_reach hd h hr 1
    have e : f = m1.union F := e
    have := hs.1 r rfl
    rw [e, this]
  · intro s hr
    obtain ⟨m1, e, d, hs⟩ := safe_reach hd h hr 1
    rcases step_or_fault s.1 s.2 (fin s hr) with h' | h' | h'
    · exact Or.inl h'
    · rw [e] at h'; exact absurd h' (hs.2.2.2.1 F d)
    · exact Or.inr h'

end Gsb
