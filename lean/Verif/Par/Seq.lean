import Verif.Par.Sound
/-
Running a fork/join program sequentially (the task first, then the parent), static footprints, and: a program whose
concurrent parts have disjoint footprints behaves under every schedule as it does sequentially.
-/
namespace Gsb
variable {T : Type}

/-- Sequential execution of programs that do not allocate. -/
def exec : Prog T → Mem T → C (Nat × Mem T)
  | .ret r, m => .ok (r, m)
  | .fail e, _ => .error e
  | .load l k, m =>
    match m l with
    | none => .error .oob
    | some none => .error .uninit
    | some (some v) => exec (k v) m
  | .store l v k, m =>
    match m l with
    | none => .error .oob
    | some _ => exec k (fun l' => if l' = l then some v else m l')
  | .alloc _ _ _, _ => .error .budget
  | .free _ _ _, _ => .error .budget
  | .fork p q k, m =>
    match exec p m with
    | .error e => .error e
    | .ok s =>
      match exec q s.2 with
      | .error e => .error e
      | .ok s' => exec (k s'.1) s'.2

@[simp] theorem exec_ret (r : Nat) (m : Mem T) : exec (.ret r) m = .ok (r, m) := rfl
@[simp] theorem exec_fail (e : Err) (m : Mem T) : exec (.fail e) m = .error e := rfl
theorem exec_load {l : Loc} {k : T → Prog T} {m : Mem T} : exec (.load l k) m =
    match m l with
    | none => .error .oob
    | some none => .error .uninit
    | some (some v) => exec (k v) m := by rw [exec]
theorem exec_store {l : Loc} {v : Option T} {k : Prog T} {m : Mem T} : exec (.store l v k) m =
    match m l with
    | none => .error .oob
    | some _ => exec k (fun l' => if l' = l then some v else m l') := by rw [exec]
theorem exec_fork {p q : Prog T} {k : Nat → Prog T} {m : Mem T} : exec (.fork p q k) m =
    match exec p m with
    | .error e => .error e
    | .ok s =>
      match exec q s.2 with
      | .error e => .error e
      | .ok s' => exec (k s'.1) s'.2 := by rw [exec]

theorem exec_seq (p : Prog T) (q : Nat → Prog T) (m : Mem T) :
    exec (p.seq q) m = (exec p m >>= fun s => exec (q s.1) s.2) := by
  induction p generalizing m with
  | ret r => rfl
  | fail e => rfl
  | load l k ih =>
    unfold Prog.seq
    rw [exec_load, exec_load]
    cases m l with
    | none => rfl
    | some c => cases c with
      | none => rfl
      | some v => exact ih v m
  | store l v k ih =>
    unfold Prog.seq
    rw [exec_store, exec_store]
    cases m l with
    | none => rfl
    | some c => exact ih _
  | alloc c v k => rfl
  | free b c k => rfl
  | fork a b k iha ihb ihk =>
    unfold Prog.seq
    rw [exec_fork, exec_fork]
    cases exec a m with
    | error e => rfl
    | ok s =>
      simp only
      cases exec b s.2 with
      | error e => rfl
      | ok s' => exact ihk _ _

/-- All cells the program may access lie in `F` (and it does not allocate). -/
def Foot (F : Loc → Prop) : Prog T → Prop
  | .ret _ => True
  | .fail _ => True
  | .load l k => F l ∧ ∀ v, Foot F (k v)
  | .store l _ k => F l ∧ Foot F k
  | .alloc _ _ _ => False
  | .free _ _ _ => False
  | .fork p q k => Foot F p ∧ Foot F q ∧ ∀ r, Foot F (k r)

theorem Foot.mono {F G : Loc → Prop} (h : ∀ l, F l → G l) {p : Prog T} (hp : Foot F p) : Foot G p := by
  induction p with
  | ret r => trivial
  | fail e => trivial
  | load l k ih => exact ⟨h l hp.1, fun v => ih v (hp.2 v)⟩
  | store l v k ih => exact ⟨h l hp.1, ih hp.2⟩
  | alloc c v k => exact hp
  | free b c k => exact hp
  | fork a b k iha ihb ihk => exact ⟨iha hp.1, ihb hp.2.1, fun r => ihk r (hp.2.2 r)⟩

theorem Foot.seq {F : Loc → Prop} {p : Prog T} {q : Nat → Prog T} (hp : Foot F p) (hq : ∀ r, Foot F (q r)) :
    Foot F (p.seq q) := by
  induction p with
  | ret r => exact hq r
  | fail e => trivial
  | load l k ih => exact ⟨hp.1, fun v => ih v (hp.2 v)⟩
  | store l v k ih => exact ⟨hp.1, ih hp.2⟩
  | alloc c v k => exact hp
  | free b c k => exact hp
  | fork a b k iha ihb ihk => exact ⟨hp.1, hp.2.1, fun r => ihk r (hp.2.2 r)⟩

theorem Foot.read {F : Loc → Prop} {α : Type} {c : C α} {k : α → Prog T} (h : ∀ a, c = .ok a → Foot F (k a)) :
    Foot F (Prog.read c k) := by
  unfold Prog.read
  cases c with
  | ok a => exact h a rfl
  | error e => trivial

theorem Foot.seqN {F : Loc → Prop} {f : Nat → Prog T} (n i : Nat) (h : ∀ j, i ≤ j → j < i + n → Foot F (f j)) :
    Foot F (Prog.seqN f n i) := by
  induction n generalizing i with
  | zero => trivial
  | succ n ih => exact (h i (by omega) (by omega)).seq (fun _ => ih (i + 1) (fun j h1 h2 => h j (by omega) (by omega)))

theorem Foot.seqFor {F : Loc → Prop} {f : Nat → Prog T} {lo hi : Nat} (h : ∀ j, lo ≤ j → j < hi → Foot F (f j)) :
    Foot F (Prog.seqFor lo hi f) := Foot.seqN _ _ (fun j h1 h2 => h j h1 (by omega))

open Classical in
/-- The part of the memory in `F`. -/
noncomputable def Mem.only (m : Mem T) (F : Loc → Prop) : Mem T := fun l => if F l then m l else none

theorem Mem.only_pos {m : Mem T} {F : Loc → Prop} {l : Loc} (h : F l) : m.only F l = m l := by
  unfold Mem.only; rw [if_pos h]

theorem Mem.only_neg {m : Mem T} {F : Loc → Prop} {l : Loc} (h : ¬ F l) : m.only F l = none := by
  unfold Mem.only; rw [if_neg h]

theorem Mem.only_split (m : Mem T) (F : Loc → Prop) : (m.only F).union (m.only (fun l => ¬ F l)) = m := by
  funext l
  by_cases h : F l
  · by_cases hn : m l = none
    · rw [Mem.union_right (by rw [Mem.only_pos h]; exact hn), Mem.only_neg (by simpa using h), hn]
    · rw [Mem.union_left (by rw [Mem.only_pos h]; exact hn), Mem.only_pos h]
  · rw [Mem.union_right (Mem.only_neg h), Mem.only_pos h]

theorem Mem.only_disj (m m' : Mem T) (F : Loc → Prop) : Disj (m.only F) (m'.only (fun l => ¬ F l)) := by
  intro l
  by_cases h : F l
  · exact Or.inr (Mem.only_neg (by simpa using h))
  · exact Or.inl (Mem.only_neg h)

theorem exec_only {F : Loc → Prop} {p : Prog T} (hp : Foot F p) {m : Mem T} {r : Nat} {m' : Mem T}
    (h : exec p m = .ok (r, m')) : exec p (m.only F) = .ok (r, m'.only F) ∧ ∀ l, ¬ F l → m' l = m l := by
  induction p generalizing m r m' with
  | ret r' =>
    unfold exec at h ⊢
    cases h
    exact ⟨rfl, fun l _ => rfl⟩
  | fail e => unfold exec at h; cases h
  | load l k ih =>
    unfold exec at h ⊢
    rw [Mem.only_pos hp.1]
    cases hm : m l with
    | none => rw [hm] at h; cases h
    | some c =>
      cases c with
      | none => rw [hm] at h; cases h
      | some v => rw [hm] at h; exact ih v (hp.2 v) h
  | store l v k ih =>
    unfold exec at h ⊢
    rw [Mem.only_pos hp.1]
    cases hm : m l with
    | none => rw [hm] at h; cases h
    | some c =>
      rw [hm] at h
      obtain ⟨h1, h2⟩ := ih hp.2 h
      refine ⟨?_, fun l' hl' => ?_⟩
      · simp only
        rw [← h1]
        congr 1
        funext l'
        by_cases e : l' = l
        · subst e; rw [if_pos rfl, Mem.only_pos hp.1, if_pos rfl]
        · rw [if_neg e]
          by_cases hF : F l'
          · rw [Mem.only_pos hF, Mem.only_pos hF, if_neg e]
          · rw [Mem.only_neg hF, Mem.only_neg hF]
      · rw [h2 l' hl', if_neg]
        rintro rfl; exact hl' hp.1
  | alloc c v k => exact absurd hp id
  | free b c k => exact absurd hp id
  | fork a b k iha ihb ihk =>
    unfold exec at h ⊢
    cases ha : exec a m with
    | error e => rw [ha] at h; cases h
    | ok s =>
      rw [ha] at h
      simp only at h
      cases hb : exec b s.2 with
      | error e => rw [hb] at h; cases h
      | ok s' =>
        rw [hb] at h
        obtain ⟨a1, a2⟩ := iha hp.1 ha
        obtain ⟨b1, b2⟩ := ihb hp.2.1 hb
        obtain ⟨k1, k2⟩ := ihk _ (hp.2.2 _) h
        rw [a1]; simp only; rw [b1]
        exact ⟨k1, fun l hl => by rw [k2 l hl, b2 l hl, a2 l hl]⟩

/-- Every schedule behaves like the sequential execution, whenever that one succeeds. -/
def Good (p : Prog T) : Prop :=
  ∀ m r m', exec p m = .ok (r, m') → ∀ n, safe (fun r' x => r' = r ∧ x = m') n p m

theorem Good.ret (r : Nat) : Good (.ret r : Prog T) := by
  intro m r' m' h
  unfold exec at h
  cases h
  exact safe_ret ⟨rfl, rfl⟩

theorem Good.load {l : Loc} {k : T → Prog T} (h : ∀ v, Good (k v)) : Good (.load l k) := by
  intro m r m' he
  unfold exec at he
  cases hm : m l with
  | none => rw [hm] at he; cases he
  | some c =>
    cases c with
    | none => rw [hm] at he; cases he
    | some v => rw [hm] at he; exact safe_load hm (h v m r m' he)

theorem Good.store {l : Loc} {v : Option T} {k : Prog T} (h : Good k) : Good (.store l v k) := by
  intro m r m' he
  unfold exec at he
  cases hm : m l with
  | none => rw [hm] at he; cases he
  | some c => rw [hm] at he; exact safe_store (by rw [hm]; simp) (h _ r m' he)

theorem Good.seq {p : Prog T} {q : Nat → Prog T} (hp : Good p) (hq : ∀ r, Good (q r)) : Good (p.seq q) := by
  intro m r m' he n
  rw [exec_seq] at he
  cases h1 : exec p m with
  | error e => rw [h1] at he; cases he
  | ok s =>
    rw [h1] at he
    refine safe_seq (Q := fun r' x => r' = s.1 ∧ x = s.2) ?_ n (hp m s.1 s.2 h1 n)
    rintro r' x ⟨rfl, rfl⟩
    exact hq _ _ r m' he

theorem Good.read {α : Type} {c : C α} {k : α → Prog T} (h : ∀ a, c = .ok a → Good (k a)) : Good (Prog.read c k) := by
  unfold Prog.read
  cases c with
  | ok a => exact h a rfl
  | error e => intro m r m' he; unfold exec at he; cases he

theorem Good.seqN {f : Nat → Prog T} (n i : Nat) (h : ∀ j, i ≤ j → j < i + n → Good (f j)) : Good (Prog.seqN f n i) := by
  induction n generalizing i with
  | zero => exact Good.ret 0
  | succ n ih => exact (h i (by omega) (by omega)).seq (fun _ => ih (i + 1) (fun j h1 h2 => h j (by omega) (by omega)))

theorem Good.seqFor {f : Nat → Prog T} {lo hi : Nat} (h : ∀ j, lo ≤ j → j < hi → Good (f j)) : Good (Prog.seqFor lo hi f) :=
  Good.seqN _ _ (fun j h1 h2 => h j h1 (by omega))

/-- Disjoint footprints: the order of the accesses of the two sides does not matter. -/
theorem Good.fork {F G : Loc → Prop} {p q : Prog T} {k : Nat → Prog T} (hFp : Foot F p) (hGq : Foot G q)
    (hFG : ∀ l, F l → ¬ G l) (hp : Good p) (hq : Good q) (hk : ∀ r, Good (k r)) : Good (.fork p q k) := by
  intro m r m' he n
  unfold exec at he
  cases h1 : exec p m with
  | error e => rw [h1] at he; cases he
  | ok s =>
    rw [h1] at he
    simp only at he
    cases h2 : exec q s.2 with
    | error e => rw [h2] at he; cases he
    | ok s' =>
      rw [h2] at he
      simp only at he
      obtain ⟨a1, a2⟩ := exec_only hFp h1
      have hGq' : Foot (fun l => ¬ F l) q := hGq.mono (fun l hG hF => hFG l hF hG)
      obtain ⟨b1, b2⟩ := exec_only hGq' h2
      have e1 : s.2.only (fun l => ¬ F l) = m.only (fun l => ¬ F l) := by
        funext l
        by_cases h : F l
        · rw [Mem.only_neg (by simpa using h), Mem.only_neg (by simpa using h)]
        · rw [Mem.only_pos h, Mem.only_pos h, a2 l h]
      have e2 : s.2.only F = s'.2.only F := by
        funext l
        by_cases h : F l
        · rw [Mem.only_pos h, Mem.only_pos h, b2 l (by simpa using h)]
        · rw [Mem.only_neg h, Mem.only_neg h]
      rw [e1] at b1
      rw [← Mem.only_split m F]
      refine safe_fork (Qp := fun _ x => x = s'.2.only F) (Qq := fun r' x => r' = s'.1 ∧ x = s'.2.only (fun l => ¬ F l)) ?_ n
        (Mem.only_disj m m F) (safe_mono (fun _ x h => by rw [h.2, e2]) (hp _ _ _ a1 n)) (hq _ _ _ b1 n)
      rintro r1 r2 m1 m2 - rfl ⟨rfl, rfl⟩
      rw [Mem.only_split]
      exact hk _ _ _ _ he

theorem Foot.parN {F : Loc → Prop} {f : Nat → Prog T} (n i : Nat) (h : ∀ j, i ≤ j → j < i + n → Foot F (f j)) :
    Foot F (Prog.parN f n i) := by
  induction n generalizing i with
  | zero => trivial
  | succ n ih => exact ⟨h i (by omega) (by omega), ih (i + 1) (fun j h1 h2 => h j (by omega) (by omega)), fun _ => trivial⟩

theorem Foot.parFor {F : Loc → Prop} {f : Nat → Prog T} {lo hi : Nat} (h : ∀ j, lo ≤ j → j < hi → Foot F (f j)) :
    Foot F (Prog.parFor lo hi f) := Foot.parN _ _ (fun j h1 h2 => h j h1 (by omega))

theorem Good.parN {F : Nat → Loc → Prop} {f : Nat → Prog T} (n i : Nat)
    (hf : ∀ j, i ≤ j → j < i + n → Foot (F j) (f j)) (hg : ∀ j, i ≤ j → j < i + n → Good (f j))
    (hd : ∀ j k, i ≤ j → j < k → k < i + n → ∀ l, F j l → ¬ F k l) : Good (Prog.parN f n i) := by
  induction n generalizing i with
  | zero => exact Good.ret 0
  | succ n ih =>
    refine Good.fork (F := F i) (G := fun l => ∃ j, i + 1 ≤ j ∧ j < i + 1 + n ∧ F j l) (hf i (by omega) (by omega)) ?_ ?_
      (hg i (by omega) (by omega)) (ih (i + 1) (fun j h1 h2 => hf j (by omega) (by omega)) (fun j h1 h2 => hg j (by omega) (by omega))
        (fun j k h1 h2 h3 => hd j k (by omega) h2 (by omega))) (fun _ => Good.ret 0)
    · exact Foot.parN n (i + 1) (fun j h1 h2 => (hf j (by omega) (by omega)).mono (fun l hl => ⟨j, h1, h2, hl⟩))
    · rintro l hl ⟨j, h1, h2, h3⟩
      exact hd i j (Nat.le_refl _) (by omega) (by omega) l hl h3

theorem Good.parFor {F : Nat → Loc → Prop} {f : Nat → Prog T} {lo hi : Nat}
    (hf : ∀ j, lo ≤ j → j < hi → Foot (F j) (f j)) (hg : ∀ j, lo ≤ j → j < hi → Good (f j))
    (hd : ∀ j k, lo ≤ j → j < k → k < hi → ∀ l, F j l → ¬ F k l) : Good (Prog.parFor lo hi f) :=
  Good.parN _ _ (fun j h1 h2 => hf j h1 (by omega)) (fun j h1 h2 => hg j h1 (by omega))
    (fun j k h1 h2 h3 => hd j k h1 h2 (by omega))

/-! ### Simulation of the serial models -/

/-- Run sequentially on an array with contents `y`, `p` does what the serial function `f` does to `y`. -/
def Sim (b o : Nat) (p : Prog T) (f : Buf T → C (Buf T)) : Prop :=
  ∀ y y', f y = .ok y' → ∃ r, exec p (arr b o y) = .ok (r, arr b o y')

theorem arr_get {b o : Nat} {y : Buf T} {i : Nat} {v : T} (h : y.get i = .ok v) : arr b o y (b, o + i) = some (some v) := by
  unfold Buf.get at h
  unfold arr
  by_cases hi : i < y.len
  · rw [if_pos ⟨rfl, by simp, by simpa using hi⟩]
    simp only [hi, if_true] at h
    simp only [Nat.add_sub_cancel_left]
    cases hd : y.dat i with
    | none => rw [hd] at h; cases h
    | some a => rw [hd] at h; cases h; rfl
  · simp only [hi, if_false] at h; cases h

theorem arr_put {b o : Nat} {y y' : Buf T} {i : Nat} {v : T} (h : y.put i v = .ok y') :
    arr b o y (b, o + i) ≠ none ∧ arr b o y' = fun l => if l = (b, o + i) then some (some v) else arr b o y l := by
  unfold Buf.put at h
  by_cases hi : i < y.len
  · simp only [hi, if_true] at h
    cases h
    refine ⟨by unfold arr; rw [if_pos ⟨rfl, by simp, by simpa using hi⟩]; simp, ?_⟩
    funext l
    obtain ⟨b', j⟩ := l
    unfold arr
    simp only [Prod.mk.injEq]
    by_cases e : b' = b ∧ j = o + i
    · obtain ⟨rfl, rfl⟩ := e
      simp [hi]
    · rw [if_neg e]
      by_cases c : b' = b ∧ o ≤ j ∧ j < o + y.len
      · rw [if_pos c, if_pos c, if_neg]
        intro h; exact e ⟨c.1, by omega⟩
      · rw [if_neg c, if_neg c]
  · simp only [hi, if_false] at h; cases h

section
variable {b o : Nat}

theorem Sim.read {α : Type} {c : C α} {k : α → Prog T} {g : α → Buf T → C (Buf T)}
    (h : ∀ a, c = .ok a → Sim b o (k a) (g a)) : Sim b o (Prog.read c k) (fun y => c >>= fun a => g a y) := by
  intro y y' hy
  unfold Prog.read
  cases c with
  | ok a => exact h a rfl y y' hy
  | error e => cases hy

theorem Sim.ret (r : Nat) : Sim b o (.ret r : Prog T) (fun y => .ok y) := by
  intro y y' h; cases h; exact ⟨r, rfl⟩

/-- `a = y[i]; a' = h(a); y[i] = a'`. -/
theorem Sim.update {i : Nat} {h : T → C T} (r : Nat) :
    Sim b o (.load (b, o + i) (fun a => Prog.read (h a) (fun a' => .store (b, o + i) (some a') (.ret r))))
      (fun y => do
        let a ← y.get i
        let a' ← h a
        y.put i a') := by
  intro y y' hy
  dsimp only at hy
  cases h1 : y.get i with
  | error e => rw [h1] at hy; cases hy
  | ok a =>
    rw [h1, ok_bind] at hy
    cases h2 : h a with
    | error e => rw [h2] at hy; cases hy
    | ok a' =>
      rw [h2, ok_bind] at hy
      obtain ⟨h3, h4⟩ := arr_put (b := b) (o := o) hy
      refine ⟨r, ?_⟩
      unfold exec
      rw [arr_get h1]
      simp only
      unfold Prog.read
      rw [h2]
      simp only
      unfold exec
      cases h5 : arr b o y (b, o + i) with
      | none => exact absurd h5 h3
      | some c =>
        simp only
        unfold exec
        rw [h4]

theorem Sim.seq {p q : Prog T} {f g : Buf T → C (Buf T)} (hp : Sim b o p f) (hq : Sim b o q g) :
    Sim b o (p.seq (fun _ => q)) (fun y => f y >>= g) := by
  intro y y' h
  dsimp only at h
  cases h1 : f y with
  | error e => rw [h1] at h; cases h
  | ok y1 =>
    rw [h1, ok_bind] at h
    obtain ⟨r, e⟩ := hp y y1 h1
    obtain ⟨r', e'⟩ := hq y1 y' h
    exact ⟨r', by rw [exec_seq, e, ok_bind]; exact e'⟩

theorem Sim.congr {p : Prog T} {f g : Buf T → C (Buf T)} (h : Sim b o p f) (e : ∀ y, g y = f y) : Sim b o p g :=
  fun y y' hy => h y y' (by rw [← e]; exact hy)

theorem Sim.seqN {f : Nat → Prog T} {F : Nat → Buf T → C (Buf T)} (n i : Nat)
    (h : ∀ j, i ≤ j → j < i + n → Sim b o (f j) (F j)) : Sim b o (Prog.seqN f n i) (fun y => loopN F n i y) := by
  induction n generalizing i with
  | zero => exact Sim.ret 0
  | succ n ih => exact Sim.seq (h i (by omega) (by omega)) (ih (i + 1) (fun j h1 h2 => h j (by omega) (by omega)))

theorem Sim.seqFor {f : Nat → Prog T} {F : Nat → Buf T → C (Buf T)} {lo hi : Nat}
    (h : ∀ j, lo ≤ j → j < hi → Sim b o (f j) (F j)) : Sim b o (Prog.seqFor lo hi f) (fun y => forLoop lo hi y F) :=
  Sim.seqN _ _ (fun j h1 h2 => h j h1 (by omega))

theorem Sim.parN {f : Nat → Prog T} {F : Nat → Buf T → C (Buf T)} (n i : Nat)
    (h : ∀ j, i ≤ j → j < i + n → Sim b o (f j) (F j)) : Sim b o (Prog.parN f n i) (fun y => loopN F n i y) := by
  induction n generalizing i with
  | zero => exact Sim.ret 0
  | succ n ih =>
    intro y y' hy
    unfold loopN at hy
    dsimp only at hy
    cases h1 : F i y with
    | error e => rw [h1] at hy; cases hy
    | ok y1 =>
      rw [h1, ok_bind] at hy
      obtain ⟨r, e⟩ := h i (by omega) (by omega) y y1 h1
      obtain ⟨r', e'⟩ := ih (i + 1) (fun j h1 h2 => h j (by omega) (by omega)) y1 y' hy
      refine ⟨0, ?_⟩
      unfold Prog.parN exec
      rw [e]; simp only
      rw [e']; simp only
      unfold exec; rfl

theorem Sim.parFor {f : Nat → Prog T} {F : Nat → Buf T → C (Buf T)} {lo hi : Nat}
    (h : ∀ j, lo ≤ j → j < hi → Sim b o (f j) (F j)) : Sim b o (Prog.parFor lo hi f) (fun y => forLoop lo hi y F) :=
  Sim.parN _ _ (fun j h1 h2 => h j h1 (by omega))

/-- A good program that simulates a serial function computes it under every schedule. -/
theorem Good.safe {p : Prog T} {f : Buf T → C (Buf T)} (hg : Good p) (hs : Sim b o p f) {y y' : Buf T} (h : f y = .ok y')
    (n : Nat) : Gsb.safe (fun _ x => x = arr b o y') n p (arr b o y) := by
  obtain ⟨r, e⟩ := hs y y' h
  exact safe_mono (fun _ _ h => h.2) (hg _ _ _ e n)

end

/-! ### Windows of an array -/

/-- Cells `lo … hi-1` of array `b`, cell `j` holding `y j`. -/
def window (b lo hi : Nat) (y : Nat → T) : Mem T := arr b lo (Buf.full (hi - lo) (fun i => y (lo + i)))

theorem window_apply {b lo hi : Nat} {y : Nat → T} (l : Loc) :
    window b lo hi y l = if l.1 = b ∧ lo ≤ l.2 ∧ l.2 < hi then some (some (y l.2)) else none := by
  have e : window b lo hi y l = if l.1 = b ∧ lo ≤ l.2 ∧ l.2 < lo + (hi - lo) then some (some (y (lo + (l.2 - lo)))) else none := rfl
  rw [e]
  by_cases h : l.1 = b ∧ lo ≤ l.2 ∧ l.2 < hi
  · rw [if_pos h, if_pos ⟨h.1, h.2.1, by omega⟩, show lo + (l.2 - lo) = l.2 by omega]
  · rw [if_neg h, if_neg]
    intro h'; exact h ⟨h'.1, h'.2.1, by omega⟩

theorem window_empty {b lo hi : Nat} {y : Nat → T} (h : hi ≤ lo) : window b lo hi y = fun _ => none := by
  funext l
  rw [window_apply, if_neg (by omega)]

theorem window_disj {b lo mid hi : Nat} {y y' : Nat → T} : Disj (window b lo mid y) (window b mid hi y') := by
  intro l
  rw [window_apply, window_apply]
  by_cases h : l.2 < mid
  · right; rw [if_neg (by omega)]
  · left; rw [if_neg (by omega)]

theorem window_union {b lo mid hi : Nat} {y : Nat → T} (h1 : lo ≤ mid) (h2 : mid ≤ hi) :
    (window b lo mid y).union (window b mid hi y) = window b lo hi y := by
  funext l
  by_cases hm : window b lo mid y l = none
  · rw [Mem.union_right hm]
    rw [window_apply] at hm ⊢
    rw [window_apply]
    by_cases c : l.1 = b ∧ lo ≤ l.2 ∧ l.2 < mid
    · rw [if_pos c] at hm; cases hm
    · by_cases d : l.1 = b ∧ mid ≤ l.2 ∧ l.2 < hi
      · rw [if_pos d, if_pos ⟨d.1, by omega, d.2.2⟩]
      · rw [if_neg d, if_neg (by omega)]
  · rw [Mem.union_left hm]
    rw [window_apply] at hm ⊢
    rw [window_apply]
    by_cases c : l.1 = b ∧ lo ≤ l.2 ∧ l.2 < mid
    · rw [if_pos c, if_pos (by omega)]
    · rw [if_neg c] at hm; exact absurd rfl hm

/-- A parallel loop whose iteration `i` works on the window `[g i, g (i+1))`. -/
theorem safe_parN_windows {b : Nat} {g : Nat → Nat} {y y' : Nat → T} {f : Nat → Prog T} (cnt lo : Nat)
    (hg : ∀ i, lo ≤ i → i < lo + cnt → g i ≤ g (i + 1))
    (h : ∀ i, lo ≤ i → i < lo + cnt → ∀ n, safe (fun _ x => x = window b (g i) (g (i + 1)) y') n (f i) (window b (g i) (g (i + 1)) y))
    (n : Nat) : safe (fun _ x => x = window b (g lo) (g (lo + cnt)) y') n (Prog.parN f cnt lo) (window b (g lo) (g (lo + cnt)) y) := by
  induction cnt generalizing lo with
  | zero => exact safe_ret (by rw [window_empty (by simp), window_empty (by simp)]) n
  | succ cnt ih =>
    have hm : g (lo + 1) ≤ g (lo + 1 + cnt) := by
      have : ∀ d, d ≤ cnt → g (lo + 1) ≤ g (lo + 1 + d) := by
        intro d hd
        induction d with
        | zero => exact Nat.le_refl _
        | succ d ihd => exact Nat.le_trans (ihd (by omega)) (hg (lo + 1 + d) (by omega) (by omega))
      exact this cnt (Nat.le_refl _)
    have e : lo + (cnt + 1) = lo + 1 + cnt := by omega
    rw [e, ← window_union (y := y) (hg lo (by omega) (by omega)) hm]
    refine safe_fork ?_ n window_disj (h lo (by omega) (by omega) n)
      (ih (lo + 1) (fun i h1 h2 => hg i (by omega) (by omega)) (fun i h1 h2 => h i (by omega) (by omega)))
    rintro r r' m1 m2 - rfl rfl
    exact safe_ret (window_union (hg lo (by omega) (by omega)) hm)

theorem safe_parFor_windows {b : Nat} {g : Nat → Nat} {y y' : Nat → T} {f : Nat → Prog T} {lo hi : Nat} (hle : lo ≤ hi)
    (hg : ∀ i, lo ≤ i → i < hi → g i ≤ g (i + 1))
    (h : ∀ i, lo ≤ i → i < hi → ∀ n, safe (fun _ x => x = window b (g i) (g (i + 1)) y') n (f i) (window b (g i) (g (i + 1)) y))
    (n : Nat) : safe (fun _ x => x = window b (g lo) (g hi) y') n (Prog.parFor lo hi f) (window b (g lo) (g hi) y) := by
  have := safe_parN_windows (b := b) (g := g) (y := y) (y' := y') (f := f) (hi - lo) lo (fun i h1 h2 => hg i h1 (by omega))
    (fun i h1 h2 => h i h1 (by omega)) n
  rw [show lo + (hi - lo) = hi by omega] at this
  exact this

end Gsb
