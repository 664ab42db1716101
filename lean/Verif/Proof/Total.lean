import Verif.Spec.Total
import Mathlib.Tactic.Linarith
import Mathlib.Tactic.Ring
import Mathlib.Tactic.Positivity
/-
Sums without laws.
-/
namespace Gsb
variable {T : Type}

section
variable [Add T] {pad pad' : T → Prop}

theorem Total.mono (hp : ∀ z, pad z → pad' z) {l : List T} {a : T} (h : Total pad l a) : Total pad' l a := by
  induction h with
  | one a => exact .one a
  | pad h => exact .pad (hp _ h)
  | add _ _ h1 h2 => exact .add h1 h2
  | perm h _ h1 => exact .perm h h1

/-- A summand that is itself a sum. -/
theorem Total.subst {l L : List T} {a b : T} (h : Total pad L b) (ha : Total pad l a) :
    ∀ L', L.Perm (a :: L') → Total pad (l ++ L') b := by
  induction h with
  | one c =>
    intro L' hp
    have hL : L' = [] := by
      have := hp.length_eq
      simp at this
      exact this
    subst hL
    have hc : c = a := by simpa using hp
    subst hc
    simpa using ha
  | pad h => intro L' hp; have := hp.length_eq; simp at this
  | @add l1 l2 c d h1 h2 ih1 ih2 =>
    intro L' hp
    have hm : a ∈ l1 ++ l2 := hp.symm.mem_iff.1 (by simp)
    rcases List.mem_append.1 hm with hm | hm
    · obtain ⟨s, t, rfl⟩ := List.append_of_mem hm
      have h3 : (s ++ a :: t).Perm (a :: (s ++ t)) := List.perm_middle
      have h4 := ih1 _ h3
      have h5 : ((s ++ t) ++ l2).Perm L' := by
        have : (a :: ((s ++ t) ++ l2)).Perm (a :: L') := by
          refine List.Perm.trans ?_ hp
          have := (h3.append_right l2).symm
          simpa using this
        exact this.cons_inv
      refine .perm ?_ (.add h4 h2)
      rw [List.append_assoc]
      exact h5.append_left l
    · obtain ⟨s, t, rfl⟩ := List.append_of_mem hm
      have h3 : (s ++ a :: t).Perm (a :: (s ++ t)) := List.perm_middle
      have h4 := ih2 _ h3
      have h5 : (l1 ++ (s ++ t)).Perm L' := by
        have : (a :: (l1 ++ (s ++ t))).Perm (a :: L') := by
          refine List.Perm.trans ?_ hp
          refine List.Perm.trans ?_ (h3.append_left l1).symm
          exact List.perm_middle.symm
        exact this.cons_inv
      refine .perm ?_ (.add h1 h4)
      have : (l1 ++ (l ++ (s ++ t))).Perm (l ++ (l1 ++ (s ++ t))) := by
        have := (List.perm_append_comm (l₁ := l1) (l₂ := l)).append_right (s ++ t)
        simpa only [List.append_assoc] using this
      exact this.trans (h5.append_left l)
  | perm hq _ ih => intro L' hp; exact ih L' (hq.trans hp)

theorem Total.trans {L L' : List T} {a b t : T} (h1 : Total pad (t :: L) a) (h2 : Total pad (a :: L') b) :
    Total pad (t :: (L ++ L')) b := by
  have := Total.subst h2 h1 L' (List.Perm.refl _)
  simpa using this

theorem Total.snoc {l : List T} {a b : T} (h : Total pad l a) : Total pad (l ++ [b]) (a + b) := .add h (.one b)

theorem Total.addPad {l : List T} {a z : T} (h : Total pad l a) (hz : pad z) : Total pad l (a + z) := by
  have := Total.add h (.pad hz)
  simpa using this

variable [Mul T]

theorem total_accumulate (x : Nat → T) (t : T) (l : List (Ent T)) :
    Total pad (t :: l.map (fun e => e.val * x e.col)) (accumulate x t l) := by
  unfold accumulate
  induction l using List.reverseRecOn with
  | nil => exact .one t
  | append_singleton l e ih =>
    rw [List.foldl_append, List.map_append]
    exact ih.snoc

theorem rowTotals_inOrder (es : List (Ent T)) (rows : Nat) (x y : Nat → T) : RowTotals pad es rows x y (spmvInOrder es x y) :=
  fun i _ => total_accumulate x (y i) _

theorem rowTotals_exact (es : List (Ent T)) (rows : Nat) (x y : Nat → T) : RowTotals pad es rows x y (spmvExact es x y) :=
  fun i _ => .perm (((List.mergeSort_perm _ _).map _).cons _) (total_accumulate x (y i) (rowByColumn es i))

omit [Add T] in
theorem products_perm {es es' : List (Ent T)} (h : es.Perm es') (x : Nat → T) (i : Nat) :
    (products es x i).Perm (products es' x i) := (h.filter _).map _

theorem RowTotals.perm {es es' : List (Ent T)} (h : es.Perm es') {rows : Nat} {x y y' : Nat → T}
    (H : RowTotals pad es rows x y y') : RowTotals pad es' rows x y y' :=
  fun i hi => .perm ((products_perm h x i).cons _) (H i hi)

theorem RowTotals.mono (hp : ∀ z, pad z → pad' z) {es : List (Ent T)} {rows : Nat} {x y y' : Nat → T}
    (H : RowTotals pad es rows x y y') : RowTotals pad' es rows x y y' :=
  fun i hi => (H i hi).mono hp

end

/-! ### Rounding errors -/

section
variable [Add T] [Mul T] [Zero T] {val : T → ℝ} {fin : T → Prop} {u η : ℝ} {pad : T → Prop}

theorem Total.allFin (R : Rounded T val fin u η) {l : List T} {a : T} (h : Total pad l a) (ha : fin a) : ∀ b ∈ l, fin b := by
  induction h with
  | one a => simpa using ha
  | pad => simp
  | add _ _ h1 h2 =>
    obtain ⟨f1, f2⟩ := R.add_fin _ _ ha
    intro b hb
    rcases List.mem_append.1 hb with h | h
    · exact h1 f1 b h
    · exact h2 f2 b h
  | perm hp _ ih => intro b hb; exact ih ha b (hp.mem_iff.2 hb)

theorem Total.error (R : Rounded T val fin u η) (hpad : ∀ z, pad z → fin z → val z = 0) {l : List T} {a : T} (h : Total pad l a)
    (ha : fin a) : (l = [] → val a = 0) ∧
      |val a - (l.map val).sum| ≤ ((1 + u) ^ (l.length - 1) - 1) * (l.map (fun b => |val b|)).sum := by
  have hu := R.u_nonneg
  induction h with
  | one a => simp
  | pad h => simp [hpad _ h ha]
  | @add l l' a b h h' ih ih' =>
    obtain ⟨f1, f2⟩ := R.add_fin _ _ ha
    obtain ⟨z1, e1⟩ := ih f1
    obtain ⟨z2, e2⟩ := ih' f2
    by_cases n1 : l = []
    · subst n1
      have hz := z1 rfl
      refine ⟨fun hl => ?_, ?_⟩
      · rw [R.zero_add _ _ ha hz]; exact z2 (by simpa using hl)
      · rw [R.zero_add _ _ ha hz]; simpa using e2
    by_cases n2 : l' = []
    · subst n2
      have hz := z2 rfl
      refine ⟨fun hl => absurd (by simpa using hl) n1, ?_⟩
      rw [R.add_zero _ _ ha hz]; simpa using e1
    refine ⟨fun hl => absurd (List.append_eq_nil_iff.1 hl).1 n1, ?_⟩
    have p1 : 0 < l.length := List.length_pos_iff.2 n1
    have p2 : 0 < l'.length := List.length_pos_iff.2 n2
    rw [List.length_append, List.map_append, List.map_append, List.sum_append, List.sum_append]
    have er := R.add a b ha
    have abs_le_sum : ∀ l : List T, |(l.map val).sum| ≤ (l.map (fun b => |val b|)).sum := by
      intro l
      induction l with
      | nil => simp
      | cons c l ih => simp only [List.map_cons, List.sum_cons]; exact (abs_add_le _ _).trans (by linarith)
    have q1 := abs_le_sum l
    have q2 := abs_le_sum l'
    generalize (l.map val).sum = A at *
    generalize (l'.map val).sum = B at *
    generalize (l.map (fun b => |val b|)).sum = SA at *
    generalize (l'.map (fun b => |val b|)).sum = SB at *
    have hSA : 0 ≤ SA := (abs_nonneg A).trans q1
    have hSB : 0 ≤ SB := (abs_nonneg B).trans q2
    obtain ⟨n, hn⟩ : ∃ n, l.length = n + 1 := ⟨l.length - 1, by omega⟩
    obtain ⟨m, hm⟩ : ∃ m, l'.length = m + 1 := ⟨l'.length - 1, by omega⟩
    rw [hn] at e1
    rw [hm] at e2
    rw [hn, hm]
    simp only [Nat.add_sub_cancel] at e1 e2
    rw [show n + 1 + (m + 1) - 1 = n + m + 1 by omega]
    have g1 : (1 : ℝ) ≤ 1 + u := by linarith
    have g2 : (1 + u) ^ n * (1 + u) ≤ (1 + u) ^ (n + m + 1) := by
      rw [← pow_succ]; exact pow_le_pow_right₀ g1 (by omega)
    have g3 : (1 + u) ^ m * (1 + u) ≤ (1 + u) ^ (n + m + 1) := by
      rw [← pow_succ]; exact pow_le_pow_right₀ g1 (by omega)
    generalize (1 + u) ^ (n + m + 1) = K at *
    generalize (1 + u) ^ n = K1 at *
    generalize (1 + u) ^ m = K2 at *
    have v1 : |val a| ≤ K1 * SA := by
      have := abs_add_le (val a - A) A
      rw [sub_add_cancel] at this
      linarith
    have v2 : |val b| ≤ K2 * SB := by
      have := abs_add_le (val b - B) B
      rw [sub_add_cancel] at this
      linarith
    have v3 : |val a + val b| ≤ K1 * SA + K2 * SB := (abs_add_le _ _).trans (by linarith)
    have v4 : |val (a + b) - (A + B)| ≤ |val (a + b) - (val a + val b)| + (|val a - A| + |val b - B|) := by
      have h1 := abs_add_le (val (a + b) - (val a + val b)) ((val a - A) + (val b - B))
      have h2 := abs_add_le (val a - A) (val b - B)
      have h3 : val (a + b) - (val a + val b) + ((val a - A) + (val b - B)) = val (a + b) - (A + B) := by ring
      rw [h3] at h1
      linarith
    have v5 : u * |val a + val b| ≤ u * (K1 * SA + K2 * SB) := mul_le_mul_of_nonneg_left v3 hu
    have v6 : (K1 * (1 + u)) * SA ≤ K * SA := mul_le_mul_of_nonneg_right g2 hSA
    have v7 : (K2 * (1 + u)) * SB ≤ K * SB := mul_le_mul_of_nonneg_right g3 hSB
    nlinarith
  | @perm l l' a hp h ih =>
    obtain ⟨z, e⟩ := ih ha
    refine ⟨fun hl => z (by subst hl; exact hp.eq_nil), ?_⟩
    rw [← hp.length_eq, ← (hp.map val).sum_eq, ← (hp.map (fun b => |val b|)).sum_eq]
    exact e

/-- The error of a row: `m` products. -/
theorem row_error (R : Rounded T val fin u η) (hpad : ∀ z, pad z → fin z → val z = 0) (x : Nat → T) (l : List (Ent T)) (t a : T)
    (h : Total pad (t :: l.map (fun e => e.val * x e.col)) a) (ha : fin a) :
    |val a - (val t + (l.map (fun e => val e.val * val (x e.col))).sum)| ≤
      ((1 + u) ^ (l.length + 1) - 1) * (|val t| + (l.map (fun e => |val e.val| * |val (x e.col)|)).sum) +
        (1 + u) ^ l.length * (l.length * η) := by
  have hu := R.u_nonneg
  have hη := R.η_nonneg
  have hf := h.allFin R ha
  have he := (h.error R hpad ha).2
  simp only [List.map_cons, List.sum_cons, List.map_map, List.length_cons, List.length_map, Nat.add_sub_cancel] at he
  have key : |((l.map (val ∘ fun e => e.val * x e.col)).sum) - (l.map (fun e => val e.val * val (x e.col))).sum| ≤
      u * (l.map (fun e => |val e.val| * |val (x e.col)|)).sum + l.length * η ∧
      (l.map ((fun b => |val b|) ∘ fun e => e.val * x e.col)).sum ≤
        (1 + u) * (l.map (fun e => |val e.val| * |val (x e.col)|)).sum + l.length * η := by
    have hf' : ∀ e ∈ l, fin (e.val * x e.col) := fun e he => hf _ (List.mem_cons_of_mem _ (List.mem_map_of_mem (f := fun e => e.val * x e.col) he))
    clear he h hf
    induction l with
    | nil => simp
    | cons e l ih =>
      obtain ⟨i1, i2⟩ := ih (fun e he => hf' e (List.mem_cons_of_mem _ he))
      have hm := R.mul _ _ (hf' e List.mem_cons_self)
      rw [abs_mul] at hm
      simp only [List.map_cons, List.sum_cons, Function.comp, List.length_cons, Nat.cast_add, Nat.cast_one] at i1 i2 ⊢
      have hv : |val (e.val * x e.col)| ≤ |val e.val| * |val (x e.col)| + (u * (|val e.val| * |val (x e.col)|) + η) := by
        have := abs_add_le (val e.val * val (x e.col)) (val (e.val * x e.col) - val e.val * val (x e.col))
        rw [add_sub_cancel, abs_mul] at this
        linarith
      constructor
      · have := abs_add_le (val (e.val * x e.col) - val e.val * val (x e.col))
          ((l.map (fun e => val (e.val * x e.col))).sum - (l.map (fun e => val e.val * val (x e.col))).sum)
        have h3 : val (e.val * x e.col) - val e.val * val (x e.col) +
            ((l.map (fun e => val (e.val * x e.col))).sum - (l.map (fun e => val e.val * val (x e.col))).sum) =
            val (e.val * x e.col) + (l.map (fun e => val (e.val * x e.col))).sum -
              (val e.val * val (x e.col) + (l.map (fun e => val e.val * val (x e.col))).sum) := by ring
        rw [h3] at this
        change |_ - _| ≤ _ at i1
        simp only [Function.comp_def] at i1 ⊢
        linarith
      · simp only [Function.comp_def] at i2 ⊢
        linarith
  obtain ⟨k1, k2⟩ := key
  generalize (l.map (val ∘ fun e => e.val * x e.col)).sum = P at *
  generalize (l.map (fun e => val e.val * val (x e.col))).sum = Q at *
  have hSn : 0 ≤ (l.map (fun e => |val e.val| * |val (x e.col)|)).sum := List.sum_nonneg (by
    intro r hr
    obtain ⟨e, -, rfl⟩ := List.mem_map.1 hr
    positivity)
  generalize (l.map (fun e => |val e.val| * |val (x e.col)|)).sum = S at *
  generalize (l.map ((fun b => |val b|) ∘ fun e => e.val * x e.col)).sum = S' at *
  have hK : (1 : ℝ) ≤ (1 + u) ^ l.length := one_le_pow₀ (by linarith)
  rw [pow_succ]
  generalize (1 + u) ^ l.length = K at *
  have hm : (0 : ℝ) ≤ l.length * η := by positivity
  generalize (l.length : ℝ) * η = E at *
  have h1 : |val a - (val t + Q)| ≤ |val a - (val t + P)| + |P - Q| := by
    have := abs_add_le (val a - (val t + P)) (P - Q)
    have h3 : val a - (val t + P) + (P - Q) = val a - (val t + Q) := by ring
    rwa [h3] at this
  have ht := abs_nonneg (val t)
  have h2 : (K - 1) * S' ≤ (K - 1) * ((1 + u) * S + E) := mul_le_mul_of_nonneg_left k2 (by linarith)
  have h3 : 0 ≤ u * (K * |val t|) := by positivity
  nlinarith

/-- The absolute value of a total. -/
theorem Total.abs_val (R : Rounded T val fin u η) (hpad : ∀ z, pad z → fin z → val z = 0) {l : List T} {a : T} (h : Total pad l a)
    (ha : fin a) : |val a| ≤ (1 + u) ^ (l.length - 1) * (l.map (fun b => |val b|)).sum := by
  have he := (h.error R hpad ha).2
  have abs_le_sum : |(l.map val).sum| ≤ (l.map (fun b => |val b|)).sum := by
    clear he h
    induction l with
    | nil => simp
    | cons c l ih => simp only [List.map_cons, List.sum_cons]; exact (abs_add_le _ _).trans (by linarith)
  have := abs_add_le (val a - (l.map val).sum) (l.map val).sum
  rw [sub_add_cancel] at this
  linarith

/-- A total of finite numbers is finite unless it is large. -/
theorem Total.finite {Ω : ℝ} (R : Rounded T val fin u η) (O : NoOverflow T val fin Ω) (hpad : ∀ z, pad z → fin z → val z = 0)
    (hpf : ∀ z, pad z → fin z) {l : List T} {a : T} (h : Total pad l a) (hl : ∀ b ∈ l, fin b)
    (hs : (1 + u) ^ (l.length - 1) * (l.map (fun b => |val b|)).sum ≤ Ω) : fin a := by
  have g1 : (1 : ℝ) ≤ 1 + u := by linarith [R.u_nonneg]
  have nn : ∀ l : List T, 0 ≤ (l.map (fun b => |val b|)).sum := fun l => List.sum_nonneg (by
    intro r hr
    obtain ⟨b, -, rfl⟩ := List.mem_map.1 hr
    exact abs_nonneg _)
  induction h with
  | one a => exact hl a (by simp)
  | pad h => exact hpf _ h
  | @add l l' a b h h' ih ih' =>
    rw [List.length_append, List.map_append, List.sum_append] at hs
    have p1 : (1 + u) ^ (l.length - 1) ≤ (1 + u) ^ (l.length + l'.length - 1) := pow_le_pow_right₀ g1 (by omega)
    have p2 : (1 + u) ^ (l'.length - 1) ≤ (1 + u) ^ (l.length + l'.length - 1) := pow_le_pow_right₀ g1 (by omega)
    have p0 : (0 : ℝ) ≤ (1 + u) ^ (l.length + l'.length - 1) := by positivity
    have m1 := mul_le_mul_of_nonneg_right p1 (nn l)
    have m2 := mul_le_mul_of_nonneg_right p2 (nn l')
    have q1 := mul_nonneg p0 (nn l)
    have q2 := mul_nonneg p0 (nn l')
    rw [mul_add] at hs
    have f1 := ih (fun b hb => hl b (List.mem_append_left _ hb)) (by linarith)
    have f2 := ih' (fun b hb => hl b (List.mem_append_right _ hb)) (by linarith)
    refine O.add _ _ f1 f2 ((abs_add_le _ _).trans ?_)
    have v1 := h.abs_val R hpad f1
    have v2 := h'.abs_val R hpad f2
    linarith
  | @perm l l' a hp h ih =>
    rw [← hp.length_eq, ← (hp.map (fun b => |val b|)).sum_eq] at hs
    exact ih (fun b hb => hl b (hp.mem_iff.1 hb)) hs

/-- A row's result is finite if its terms are not too large. -/
theorem row_finite {Ω : ℝ} (R : Rounded T val fin u η) (O : NoOverflow T val fin Ω) (hpad : ∀ z, pad z → fin z → val z = 0)
    (hpf : ∀ z, pad z → fin z) (x : Nat → T) (l : List (Ent T)) (t a : T)
    (h : Total pad (t :: l.map (fun e => e.val * x e.col)) a) (ht : fin t) (hl : ∀ e ∈ l, fin e.val ∧ fin (x e.col))
    (hs : (1 + u) ^ (l.length + 1) * (|val t| + (l.map (fun e => |val e.val| * |val (x e.col)|)).sum + l.length * η) ≤ Ω) : fin a := by
  have hu := R.u_nonneg
  have hη := R.η_nonneg
  have g1 : (1 : ℝ) ≤ 1 + u := by linarith
  have nn : ∀ l : List (Ent T), 0 ≤ (l.map (fun e => |val e.val| * |val (x e.col)|)).sum := fun l => List.sum_nonneg (by
    intro r hr
    obtain ⟨e, -, rfl⟩ := List.mem_map.1 hr
    positivity)
  have hK : (1 : ℝ) ≤ (1 + u) ^ l.length := one_le_pow₀ g1
  have hm : (0 : ℝ) ≤ l.length * η := by positivity
  have hS := nn l
  have hX : |val t| + (l.map (fun e => |val e.val| * |val (x e.col)|)).sum + l.length * η ≤ Ω := by
    refine le_trans ?_ hs
    have : (1 : ℝ) ≤ (1 + u) ^ (l.length + 1) := one_le_pow₀ g1
    have h0 : 0 ≤ |val t| + (l.map (fun e => |val e.val| * |val (x e.col)|)).sum + l.length * η := by positivity
    nlinarith
  have hbig : ∀ e ∈ l, |val e.val * val (x e.col)| ≤ Ω := by
    intro e he
    rw [abs_mul]
    have : |val e.val| * |val (x e.col)| ≤ (l.map (fun e => |val e.val| * |val (x e.col)|)).sum :=
      List.single_le_sum (by
        intro r hr
        obtain ⟨e, -, rfl⟩ := List.mem_map.1 hr
        positivity) _ (List.mem_map_of_mem (f := fun e => |val e.val| * |val (x e.col)|) he)
    have := abs_nonneg (val t)
    linarith
  have hfin : ∀ e ∈ l, fin (e.val * x e.col) := fun e he => O.mul _ _ (hl e he).1 (hl e he).2 (hbig e he)
  refine h.finite R O hpad hpf ?_ ?_
  · intro b hb
    rcases List.mem_cons.1 hb with rfl | hb
    · exact ht
    · obtain ⟨e, he, rfl⟩ := List.mem_map.1 hb
      exact hfin e he
  · simp only [List.map_cons, List.sum_cons, List.map_map, List.length_cons, List.length_map, Nat.add_sub_cancel]
    have key : (l.map ((fun b => |val b|) ∘ fun e => e.val * x e.col)).sum ≤
        (1 + u) * (l.map (fun e => |val e.val| * |val (x e.col)|)).sum + l.length * η := by
      clear hs hX hbig hl h hm hK hS
      induction l with
      | nil => simp
      | cons e l ih =>
        have i2 := ih (fun e he => hfin e (List.mem_cons_of_mem _ he))
        have hm := R.mul _ _ (hfin e List.mem_cons_self)
        rw [abs_mul] at hm
        simp only [List.map_cons, List.sum_cons, Function.comp_def, List.length_cons, Nat.cast_add, Nat.cast_one] at i2 ⊢
        have := abs_add_le (val e.val * val (x e.col)) (val (e.val * x e.col) - val e.val * val (x e.col))
        rw [add_sub_cancel, abs_mul] at this
        linarith
    rw [pow_succ] at hs
    generalize (l.map ((fun b => |val b|) ∘ fun e => e.val * x e.col)).sum = S' at *
    generalize (l.map (fun e => |val e.val| * |val (x e.col)|)).sum = S at *
    have ht0 := abs_nonneg (val t)
    generalize |val t| = t0 at *
    generalize (l.length : ℝ) * η = q at *
    refine le_trans ?_ hs
    rw [mul_assoc]
    refine mul_le_mul_of_nonneg_left ?_ (by linarith)
    nlinarith

end
end Gsb
