import Verif.Spec.Float
import Mathlib.Tactic.Linarith
import Mathlib.Algebra.Order.Field.Power
import Mathlib.Data.Rat.Cast.CharZero
import Mathlib.Data.Rat.Cast.Order
import Mathlib.Tactic.Positivity
import Mathlib.Tactic.Ring
import Mathlib.Tactic.FieldSimp
/-
The arithmetic of IEEE 754 rounds as `Rounded` says.
-/
namespace Gsb

theorem nearestEven_error (q : ℚ) : |q - nearestEven q| ≤ 1 / 2 := by
  unfold nearestEven
  split
  · next h =>
    have hq : q = (⌊q⌋ : ℚ) + 1 / 2 := by
      have := Int.floor_add_fract q
      rw [h] at this; exact this.symm
    have hr : round (q / 2) = ⌊q / 2 + 1 / 2⌋ := round_eq _
    rcases Int.even_or_odd' ⌊q⌋ with ⟨k, hk | hk⟩
    · have : round (q / 2) = k := by
        rw [hr, Int.floor_eq_iff, hq, hk]; push_cast; constructor <;> linarith
      rw [this, hq, hk]; push_cast; rw [abs_le]; constructor <;> linarith
    · have : round (q / 2) = k + 1 := by
        rw [hr, Int.floor_eq_iff, hq, hk]; push_cast; constructor <;> linarith
      rw [this, hq, hk]; push_cast; rw [abs_le]; constructor <;> linarith
  · exact abs_sub_round q

theorem nearestEven_int (n : ℤ) : nearestEven (n : ℚ) = n := by
  unfold nearestEven
  rw [if_neg (by rw [Int.fract_intCast]; norm_num), round_intCast]

section
variable {p : Nat} {emin emax : ℤ}

theorem two_pos (k : ℤ) : (0 : ℚ) < 2 ^ k := by positivity

theorem two_le {a b : ℤ} (h : a ≤ b) : (2 : ℚ) ^ a ≤ 2 ^ b := zpow_le_zpow_right₀ (by norm_num) h

/-- Half a unit in the last place. -/
theorem roundTo_error (p : Nat) (emin : ℤ) (q : ℚ) : |roundTo p emin q - q| ≤ 2 ^ (ulpExp p emin q - 1) := by
  have hk := two_pos (ulpExp p emin q)
  have h := nearestEven_error (q / 2 ^ ulpExp p emin q)
  unfold roundTo
  generalize ulpExp p emin q = k at *
  have e : (nearestEven (q / 2 ^ k) : ℚ) * 2 ^ k - q = -((q / 2 ^ k - nearestEven (q / 2 ^ k)) * 2 ^ k) := by
    field_simp; ring
  rw [e, abs_neg, abs_mul, abs_of_pos hk]
  have : (2 : ℚ) ^ (k - 1) = 1 / 2 * 2 ^ k := by
    rw [zpow_sub_one₀ (by norm_num)]; ring
  rw [this]
  exact mul_le_mul_of_nonneg_right h hk.le

theorem roundTo_of_int {q : ℚ} {n : ℤ} (h : q = n * 2 ^ ulpExp p emin q) : roundTo p emin q = q := by
  have hk := two_pos (ulpExp p emin q)
  have : q / 2 ^ ulpExp p emin q = n := by rw [div_eq_iff hk.ne']; exact h
  unfold roundTo
  rw [this, nearestEven_int]
  exact h.symm

/-- A multiple of `2^e` with `ulpExp ≤ e` is not changed. -/
theorem roundTo_mult {q : ℚ} {m e : ℤ} (h : q = m * 2 ^ e) (he : ulpExp p emin q ≤ e) : roundTo p emin q = q := by
  obtain ⟨d, hd⟩ : ∃ d : ℕ, e = ulpExp p emin q + d := ⟨(e - ulpExp p emin q).toNat, by omega⟩
  refine roundTo_of_int (n := m * 2 ^ d) ?_
  conv_lhs => rw [h, hd, zpow_add₀ (by norm_num)]
  push_cast
  rw [zpow_natCast]; ring

theorem ulpExp_le {q : ℚ} {m e : ℤ} (h : q = m * 2 ^ e) (hm : |m| < 2 ^ p) (he : emin ≤ e) (hq : q ≠ 0) : ulpExp p emin q ≤ e := by
  have hlt : |q| < (2 : ℚ) ^ ((p : ℤ) + e) := by
    rw [h, abs_mul, abs_of_pos (two_pos e), zpow_add₀ (by norm_num), zpow_natCast]
    refine mul_lt_mul_of_pos_right ?_ (two_pos e)
    exact_mod_cast hm
  have := (Int.lt_zpow_iff_log_lt (b := 2) (by norm_num) (abs_pos.2 hq)).1 (by exact_mod_cast hlt)
  unfold ulpExp
  omega

theorem roundTo_representable {q : ℚ} (h : Representable p emin emax q) : roundTo p emin q = q := by
  obtain ⟨m, e, h1, h2, h3, -⟩ := h
  by_cases hq : q = 0
  · subst hq; exact roundTo_of_int (n := 0) (by simp)
  · exact roundTo_mult h1 (ulpExp_le h1 h2 h3 hq)

/-- What is rounded is representable unless it is too large. -/
theorem representable_roundTo (hp : 1 ≤ p) (q : ℚ) :
    Representable p emin emax (roundTo p emin q) ↔ |roundTo p emin q| < 2 ^ (emax + 1) := by
  constructor
  · rintro ⟨_, _, -, -, -, h⟩; exact h
  intro h
  by_cases hq : q = 0
  · have : roundTo p emin q = q := roundTo_of_int (n := 0) (by simp [hq])
    rw [this, hq]; exact representable_zero _ _ _
  have hk := two_pos (ulpExp p emin q)
  have hb : |q| < (2 : ℚ) ^ (p : ℤ) * 2 ^ ulpExp p emin q := by
    have h1 := Int.lt_zpow_succ_log_self (b := 2) (by norm_num) |q|
    rw [← zpow_add₀ (by norm_num)]
    refine lt_of_lt_of_le (by exact_mod_cast h1) (two_le ?_)
    unfold ulpExp; omega
  have hn : |nearestEven (q / 2 ^ ulpExp p emin q)| ≤ 2 ^ p := by
    have h1 := nearestEven_error (q / 2 ^ ulpExp p emin q)
    have h2 : |q / 2 ^ ulpExp p emin q| < (2 : ℚ) ^ p := by
      rw [abs_div, abs_of_pos hk, div_lt_iff₀ hk]
      exact_mod_cast hb
    have h3 : |(nearestEven (q / 2 ^ ulpExp p emin q) : ℚ)| < 2 ^ p + 1 := by
      have a := abs_le.1 h1
      have b := abs_lt.1 h2
      rw [abs_lt]; constructor <;> linarith [a.1, a.2, b.1, b.2]
    have h4 : |nearestEven (q / 2 ^ ulpExp p emin q)| < 2 ^ p + 1 := by exact_mod_cast h3
    omega
  have hmin : emin ≤ ulpExp p emin q := le_max_right _ _
  rcases lt_or_eq_of_le hn with hlt | heq
  · exact ⟨_, _, rfl, hlt, hmin, h⟩
  · obtain ⟨p', rfl⟩ : ∃ p', p = p' + 1 := ⟨p - 1, by omega⟩
    have : ∃ s : ℤ, nearestEven (q / 2 ^ ulpExp (p' + 1) emin q) = s * 2 ^ p' * 2 ∧ |s| = 1 := by
      rcases abs_choice (nearestEven (q / 2 ^ ulpExp (p' + 1) emin q)) with h' | h'
      · exact ⟨1, by rw [h'] at heq; rw [heq]; ring, by norm_num⟩
      · exact ⟨-1, by rw [h'] at heq; linarith [pow_succ (2 : ℤ) p'], by norm_num⟩
    obtain ⟨s, hs, hs1⟩ := this
    refine ⟨s * 2 ^ p', ulpExp (p' + 1) emin q + 1, ?_, ?_, by omega, h⟩
    · unfold roundTo
      rw [hs, zpow_add_one₀ (by norm_num)]; push_cast; ring
    · rw [abs_mul, hs1, one_mul, abs_of_pos (by positivity)]
      exact pow_lt_pow_right₀ (by norm_num) (by omega)

/-- Relative error, or half the smallest number. -/
theorem roundTo_rel (p : Nat) (emin : ℤ) (q : ℚ) (hq : q ≠ 0) :
    |roundTo p emin q - q| ≤ 2 ^ (-(p : ℤ)) * |q| ∨ (ulpExp p emin q = emin ∧ |roundTo p emin q - q| ≤ 2 ^ (emin - 1)) := by
  have h := roundTo_error p emin q
  rcases le_total emin (Int.log 2 |q| - (p - 1)) with h' | h'
  · left
    refine h.trans ?_
    have hl := Int.zpow_log_le_self (b := 2) (by norm_num) (abs_pos.2 hq)
    have e : ulpExp p emin q - 1 = -(p : ℤ) + Int.log 2 |q| := by unfold ulpExp; rw [max_eq_left h']; ring
    rw [e, zpow_add₀ (by norm_num)]
    exact mul_le_mul_of_nonneg_left (by exact_mod_cast hl) (two_pos _).le
  · right
    have e : ulpExp p emin q = emin := max_eq_right h'
    rw [e] at h
    exact ⟨e, h⟩

theorem ofExact_some {q : ℚ} (h : (Flt.ofExact q : Flt p emin emax).fin) :
    ∃ hr, (Flt.ofExact q : Flt p emin emax) = some ⟨roundTo p emin q, hr⟩ := by
  unfold Flt.ofExact at h ⊢
  by_cases hr : Representable p emin emax (roundTo p emin q)
  · exact ⟨hr, dif_pos hr⟩
  · exact absurd (dif_neg hr) h

theorem val_ofExact {q : ℚ} (h : (Flt.ofExact q : Flt p emin emax).fin) :
    (Flt.ofExact q : Flt p emin emax).val = ((roundTo p emin q : ℚ) : ℝ) := by
  obtain ⟨hr, e⟩ := ofExact_some h
  rw [e]; rfl

theorem ulp_zero_exact (a b : {q : ℚ // Representable p emin emax q}) (h : ulpExp p emin (a.1 + b.1) = emin) :
    roundTo p emin (a.1 + b.1) = a.1 + b.1 := by
  obtain ⟨m, e, h1, -, h3, -⟩ := a.2
  obtain ⟨m', e', h1', -, h3', -⟩ := b.2
  obtain ⟨d, hd⟩ : ∃ d : ℕ, e = emin + d := ⟨(e - emin).toNat, by omega⟩
  obtain ⟨d', hd'⟩ : ∃ d' : ℕ, e' = emin + d' := ⟨(e' - emin).toNat, by omega⟩
  refine roundTo_of_int (n := m * 2 ^ d + m' * 2 ^ d') ?_
  rw [h, h1, h1', hd, hd', zpow_add₀ (by norm_num), zpow_add₀ (by norm_num), zpow_natCast, zpow_natCast]
  push_cast; ring

theorem flt_rounded (p : Nat) (emin emax : ℤ) :
    Rounded (Flt p emin emax) Flt.val Flt.fin (2 ^ (-(p : ℤ))) (2 ^ (emin - 1)) where
  u_nonneg := by positivity
  η_nonneg := by positivity
  zero := by show ((0 : ℚ) : ℝ) = 0; simp
  add_fin := by
    rintro (_ | a) (_ | b) h
    · exact absurd rfl h
    · exact absurd rfl h
    · exact absurd rfl h
    · exact ⟨Option.some_ne_none a, Option.some_ne_none b⟩
  mul_fin := by
    rintro (_ | a) (_ | b) h
    · exact absurd rfl h
    · exact absurd rfl h
    · exact absurd rfl h
    · exact ⟨Option.some_ne_none a, Option.some_ne_none b⟩
  add := by
    rintro (_ | a) (_ | b) h
    · exact absurd rfl h
    · exact absurd rfl h
    · exact absurd rfl h
    · change |Flt.val (Flt.ofExact (a.1 + b.1)) - (((a.1 : ℚ) : ℝ) + ((b.1 : ℚ) : ℝ))| ≤ _ * |((a.1 : ℚ) : ℝ) + ((b.1 : ℚ) : ℝ)|
      rw [val_ofExact h]
      have key : |roundTo p emin (a.1 + b.1) - (a.1 + b.1)| ≤ 2 ^ (-(p : ℤ)) * |a.1 + b.1| := by
        by_cases hq : a.1 + b.1 = 0
        · rw [hq, roundTo_of_int (n := 0) (by simp)]; simp
        · rcases roundTo_rel p emin _ hq with h' | ⟨h', -⟩
          · exact h'
          · rw [ulp_zero_exact a b h', sub_self, abs_zero]; positivity
      have key' := (Rat.cast_le (K := ℝ)).2 key
      simpa only [Rat.cast_abs, Rat.cast_sub, Rat.cast_add, Rat.cast_mul, Rat.cast_zpow, Rat.cast_ofNat] using key'
  mul := by
    rintro (_ | a) (_ | b) h
    · exact absurd rfl h
    · exact absurd rfl h
    · exact absurd rfl h
    · change |Flt.val (Flt.ofExact (a.1 * b.1)) - (((a.1 : ℚ) : ℝ) * ((b.1 : ℚ) : ℝ))| ≤ _ * |((a.1 : ℚ) : ℝ) * ((b.1 : ℚ) : ℝ)| + _
      rw [val_ofExact h]
      have key : |roundTo p emin (a.1 * b.1) - (a.1 * b.1)| ≤ 2 ^ (-(p : ℤ)) * |a.1 * b.1| + 2 ^ (emin - 1) := by
        by_cases hq : a.1 * b.1 = 0
        · rw [hq, roundTo_of_int (n := 0) (by simp)]; simp; positivity
        · rcases roundTo_rel p emin _ hq with h' | ⟨-, h'⟩
          · refine h'.trans ?_
            have := (two_pos (emin - 1)).le
            linarith
          · refine h'.trans ?_
            have : 0 ≤ (2 : ℚ) ^ (-(p : ℤ)) * |a.1 * b.1| := by positivity
            linarith
      have key' := (Rat.cast_le (K := ℝ)).2 key
      simpa only [Rat.cast_abs, Rat.cast_sub, Rat.cast_add, Rat.cast_mul, Rat.cast_zpow, Rat.cast_ofNat] using key'
  add_zero := by
    rintro (_ | a) (_ | b) h hb
    · exact absurd rfl h
    · exact absurd rfl h
    · exact absurd rfl h
    · have hb' : b.1 = 0 := by
        have : ((b.1 : ℚ) : ℝ) = 0 := hb
        exact_mod_cast this
      change Flt.val (Flt.ofExact (a.1 + b.1)) = ((a.1 : ℚ) : ℝ)
      rw [val_ofExact h, hb', _root_.add_zero, roundTo_representable a.2]
  zero_add := by
    rintro (_ | a) (_ | b) h ha
    · exact absurd rfl h
    · exact absurd rfl h
    · exact absurd rfl h
    · have ha' : a.1 = 0 := by
        have : ((a.1 : ℚ) : ℝ) = 0 := ha
        exact_mod_cast this
      change Flt.val (Flt.ofExact (a.1 + b.1)) = ((b.1 : ℚ) : ℝ)
      rw [val_ofExact h, ha', _root_.zero_add, roundTo_representable b.2]
  zero_mul := by
    rintro (_ | b) h
    · exact absurd rfl h
    · change Flt.val (Flt.ofExact (0 * b.1)) = 0
      rw [val_ofExact h, MulZeroClass.zero_mul, roundTo_of_int (n := 0) (by simp)]
      simp

theorem ofExact_fin (hp : 1 ≤ p) (he : emin ≤ emax) {q : ℚ} (hq : |q| ≤ 2 ^ emax) : (Flt.ofExact q : Flt p emin emax).fin := by
  have hr : Representable p emin emax (roundTo p emin q) := by
    by_cases h0 : q = 0
    · rw [roundTo_of_int (n := 0) (by simp [h0]), h0]; exact representable_zero _ _ _
    rw [representable_roundTo hp]
    have h1 := roundTo_error p emin q
    have h2 : (2 : ℚ) ^ (ulpExp p emin q - 1) ≤ 2 ^ (emax - 1) := by
      refine two_le ?_
      have h3 : (2 : ℚ) ^ Int.log 2 |q| ≤ 2 ^ emax :=
        le_trans (by exact_mod_cast Int.zpow_log_le_self (b := 2) (by norm_num) (abs_pos.2 h0)) hq
      have h4 := (zpow_le_zpow_iff_right₀ (show (1 : ℚ) < 2 by norm_num)).1 h3
      unfold ulpExp
      omega
    have h5 : |roundTo p emin q| ≤ |roundTo p emin q - q| + |q| := by
      have := abs_add_le (roundTo p emin q - q) q
      rwa [sub_add_cancel] at this
    have h6 : (2 : ℚ) ^ (emax - 1) = 2 ^ emax / 2 := by rw [zpow_sub_one₀ (by norm_num)]; rfl
    have h7 : (2 : ℚ) ^ (emax + 1) = 2 ^ emax * 2 := zpow_add_one₀ (by norm_num) _
    have h8 := two_pos emax
    rw [h6] at h2
    rw [h7]
    linarith
  intro h
  have : (Flt.ofExact q : Flt p emin emax) = some ⟨_, hr⟩ := dif_pos hr
  rw [this] at h
  exact Option.some_ne_none _ h

theorem flt_noOverflow (hp : 1 ≤ p) (he : emin ≤ emax) : NoOverflow (Flt p emin emax) Flt.val Flt.fin (2 ^ emax) where
  zero := Option.some_ne_none _
  add := by
    rintro (_ | a) (_ | b) h1 h2 h
    · exact absurd rfl h1
    · exact absurd rfl h1
    · exact absurd rfl h2
    · change |((a.1 : ℚ) : ℝ) + ((b.1 : ℚ) : ℝ)| ≤ _ at h
      refine ofExact_fin hp he ?_
      have : (((|a.1 + b.1| : ℚ)) : ℝ) ≤ (((2 : ℚ) ^ emax : ℚ) : ℝ) := by
        simpa only [Rat.cast_abs, Rat.cast_add, Rat.cast_zpow, Rat.cast_ofNat] using h
      exact (Rat.cast_le (K := ℝ)).1 this
  mul := by
    rintro (_ | a) (_ | b) h1 h2 h
    · exact absurd rfl h1
    · exact absurd rfl h1
    · exact absurd rfl h2
    · change |((a.1 : ℚ) : ℝ) * ((b.1 : ℚ) : ℝ)| ≤ _ at h
      refine ofExact_fin hp he ?_
      have : (((|a.1 * b.1| : ℚ)) : ℝ) ≤ (((2 : ℚ) ^ emax : ℚ) : ℝ) := by
        simpa only [Rat.cast_abs, Rat.cast_mul, Rat.cast_zpow, Rat.cast_ofNat] using h
      exact (Rat.cast_le (K := ℝ)).1 this

end
end Gsb
