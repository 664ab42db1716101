import Verif.Model.Bits
import Mathlib.Data.Nat.Bitwise
/-
Bit tricks.
-/
namespace Gsb

theorem smear_spec {x x' w : Nat} (h : ∀ i, x'.testBit i = true ↔ ∃ j, j < w ∧ x.testBit (i + j) = true) :
    ∀ i, (smear w x').testBit i = true ↔ ∃ j, j < 2 * w ∧ x.testBit (i + j) = true := by
  intro i
  unfold smear
  rw [Nat.testBit_or, Nat.testBit_shiftRight, Bool.or_eq_true, h, h]
  constructor
  · rintro (⟨j, h1, h2⟩ | ⟨j, h1, h2⟩)
    · exact ⟨j, by omega, h2⟩
    · exact ⟨w + j, by omega, by rwa [show i + (w + j) = w + i + j by omega]⟩
  · rintro ⟨j, h1, h2⟩
    by_cases hj : j < w
    · exact Or.inl ⟨j, hj, h2⟩
    · exact Or.inr ⟨j - w, by omega, by rwa [show w + i + (j - w) = i + j by omega]⟩

/-- All the smearing steps: every bit up to the highest one set. -/
theorem smear_all (x : Nat) (hx : x < 2 ^ 64) :
    smear 32 (smear 16 (smear 8 (smear 4 (smear 2 (smear 1 x))))) = if x = 0 then 0 else 2 ^ (x.log2 + 1) - 1 := by
  have h0 : ∀ i, x.testBit i = true ↔ ∃ j, j < 1 ∧ x.testBit (i + j) = true := by
    intro i
    constructor
    · intro h; exact ⟨0, by omega, h⟩
    · rintro ⟨j, hj, h⟩
      obtain rfl : j = 0 := by omega
      exact h
  have h := smear_spec (smear_spec (smear_spec (smear_spec (smear_spec (smear_spec h0)))))
  simp only [show 2 * 1 = 2 from rfl, show 2 * 2 = 4 from rfl, show 2 * 4 = 8 from rfl, show 2 * 8 = 16 from rfl,
    show 2 * 16 = 32 from rfl, show 2 * 32 = 64 from rfl] at h
  by_cases hz : x = 0
  · subst hz; rfl
  · rw [if_neg hz]
    apply Nat.eq_of_testBit_eq
    intro i
    rw [Bool.eq_iff_iff, h i, Nat.testBit_two_pow_sub_one, decide_eq_true_iff]
    have hl : x.log2 < 64 := (Nat.log2_lt hz).2 hx
    constructor
    · rintro ⟨j, _, hj⟩
      by_contra hc
      have hxl : x < 2 ^ (i + j) := Nat.lt_of_lt_of_le (Nat.lt_log2_self (n := x)) (Nat.pow_le_pow_right (by omega) (by omega))
      rw [Nat.testBit_lt_two_pow hxl] at hj
      cases hj
    · intro hi
      refine ⟨x.log2 - i, by omega, ?_⟩
      rw [show i + (x.log2 - i) = x.log2 by omega]
      exact Nat.testBit_log2 hz

theorem nextPowerOfTwo_eq (n : Nat) (hn : 1 ≤ n) (hn' : n < 2 ^ 64) :
    nextPowerOfTwo n = (if n = 1 then 1 else 2 ^ ((n - 1).log2 + 1)) % 2 ^ 64 := by
  unfold nextPowerOfTwo
  simp only
  rw [subM_eq hn' hn, smear_all _ (by omega)]
  unfold addM
  by_cases h : n = 1
  · subst h; rfl
  · rw [if_neg (by omega), if_neg h, Nat.sub_add_cancel (Nat.one_le_two_pow)]

theorem nextPowerOfTwo_zero : nextPowerOfTwo 0 = 0 := by decide

theorem nextPowerOfTwo_one : nextPowerOfTwo 1 = 1 := by decide

/-- `n` between two powers of two. -/
theorem nextPowerOfTwo_of_between {n k : Nat} (hk : k < 63) (h1 : 2 ^ k < n) (h2 : n ≤ 2 ^ (k + 1)) :
    nextPowerOfTwo n = 2 ^ (k + 1) := by
  have hp : 1 ≤ 2 ^ k := Nat.one_le_two_pow
  have hle : 2 ^ (k + 1) ≤ 2 ^ 63 := Nat.pow_le_pow_right (by omega) (by omega)
  have h63 : (2 : Nat) ^ 63 < 2 ^ 64 := by decide
  have hl : (n - 1).log2 = k := (Nat.log2_eq_iff (by omega)).2 ⟨by omega, by omega⟩
  rw [nextPowerOfTwo_eq n (by omega) (by omega), if_neg (by omega), hl, Nat.mod_eq_of_lt (by omega)]

theorem exists_between {n : Nat} (hn : 2 ≤ n) : ∃ k, 2 ^ k < n ∧ n ≤ 2 ^ (k + 1) := by
  refine ⟨(n - 1).log2, ?_, ?_⟩
  · have := Nat.log2_self_le (n := n - 1) (by omega); omega
  · have := Nat.lt_log2_self (n := n - 1); omega

theorem pow_lt_iff {a b : Nat} : 2 ^ a < 2 ^ b ↔ a < b := Nat.pow_lt_pow_iff_right (by omega)

theorem and_mask {v s : Nat} (hv : v < 2 ^ (2 * s)) : v &&& ((2 ^ s - 1) <<< s) ≠ 0 ↔ 2 ^ s ≤ v := by
  have : v &&& ((2 ^ s - 1) <<< s) = (v >>> s) <<< s := by
    apply Nat.eq_of_testBit_eq
    intro i
    rw [Nat.testBit_and, Nat.testBit_shiftLeft, Nat.testBit_shiftLeft, Nat.testBit_two_pow_sub_one, Nat.testBit_shiftRight]
    by_cases hi : s ≤ i
    · simp only [hi, decide_true, Bool.true_and, show s + (i - s) = i by omega]
      by_cases h2 : i - s < s
      · simp [h2]
      · have : v.testBit i = false :=
          Nat.testBit_lt_two_pow (Nat.lt_of_lt_of_le hv (Nat.pow_le_pow_right (by omega) (by omega)))
        simp [this]
    · simp [hi]
  rw [this, Nat.shiftLeft_eq, Nat.shiftRight_eq_div_pow]
  have hp : 0 < 2 ^ s := Nat.two_pow_pos s
  rw [ne_eq, Nat.mul_eq_zero, not_or]
  constructor
  · rintro ⟨h, -⟩
    by_contra hc
    exact h (Nat.div_eq_of_lt (by omega))
  · intro h
    exact ⟨by have := Nat.div_pos h hp; omega, by omega⟩

/-- The tables of `highest_bit_set`, last entry first. -/
def stages : Nat → List (Nat × Nat)
  | 0 => []
  | k + 1 => ((2 ^ 2 ^ k - 1) <<< 2 ^ k, 2 ^ k) :: stages k

theorem hbsLoop_stages (k : Nat) (v r : Nat) (hv : v < 2 ^ 2 ^ k) (hr : r % 2 ^ k = 0) :
    hbsLoop (stages k) v r = r + v.log2 := by
  induction k generalizing v r with
  | zero =>
    have : v.log2 = 0 := by
      have : v = 0 ∨ v = 1 := by simp at hv; omega
      rcases this with rfl | rfl <;> decide
    rw [stages, hbsLoop, this]; rfl
  | succ k ih =>
    have hp : (2 : Nat) ^ (k + 1) = 2 * 2 ^ k := by rw [Nat.pow_succ]; omega
    have hr' : r % 2 ^ k = 0 := by
      have : r % 2 ^ (k + 1) % 2 ^ k = 0 := by rw [hr]; simp
      rwa [hp, Nat.mod_mul_left_mod] at this
    rw [hp] at hv
    rw [stages, hbsLoop]
    by_cases hc : 2 ^ 2 ^ k ≤ v
    · rw [if_pos ((and_mask hv).2 hc)]
      have hor : r ||| 2 ^ k = r + 2 ^ k := by
        have h1 : r = 2 ^ (k + 1) * (r / 2 ^ (k + 1)) := by have := Nat.div_add_mod r (2 ^ (k + 1)); omega
        rw [h1, ← Nat.two_pow_add_eq_or_of_lt (by rw [hp]; have := Nat.two_pow_pos k; omega)]
      have hdiv : v >>> 2 ^ k < 2 ^ 2 ^ k := by
        rw [Nat.shiftRight_eq_div_pow, Nat.div_lt_iff_lt_mul (Nat.two_pow_pos _), ← Nat.pow_add]
        rwa [show 2 ^ k + 2 ^ k = 2 * 2 ^ k by omega]
      rw [hor, ih _ _ hdiv (by rw [Nat.add_mod_right]; exact hr')]
      have hv0 : v ≠ 0 := by have := Nat.two_pow_pos (2 ^ k); omega
      have hd0 : v >>> 2 ^ k ≠ 0 := by
        rw [Nat.shiftRight_eq_div_pow]; have := Nat.div_pos hc (Nat.two_pow_pos _); omega
      have : v.log2 = 2 ^ k + (v >>> 2 ^ k).log2 := by
        rw [Nat.log2_eq_iff hv0]
        have h1 := Nat.log2_self_le hd0
        have h2 := Nat.lt_log2_self (n := v >>> 2 ^ k)
        rw [Nat.shiftRight_eq_div_pow] at h1 h2 ⊢
        constructor
        · rw [Nat.pow_add, Nat.mul_comm]
          exact (Nat.le_div_iff_mul_le (Nat.two_pow_pos _)).1 h1
        · rw [show ∀ a b, a + b + 1 = (b + 1) + a by intros; omega, Nat.pow_add]
          exact (Nat.div_lt_iff_lt_mul (Nat.two_pow_pos _)).1 h2
      rw [this]; omega
    · rw [if_neg (by rw [and_mask hv]; exact hc)]
      exact ih v r (by omega) hr'

theorem highestBitSet32_eq (v : Nat) (hv : v < 2 ^ 32) : highestBitSet32 v = v.log2 := by
  have : highestBitSet32 v = hbsLoop (stages 5) v 0 := rfl
  rw [this, hbsLoop_stages 5 v 0 hv (by simp)]; omega

theorem highestBitSet64_eq (v : Nat) (hv : v < 2 ^ 64) : highestBitSet64 v = v.log2 := by
  have : highestBitSet64 v = hbsLoop (stages 6) v 0 := rfl
  rw [this, hbsLoop_stages 6 v 0 hv (by simp)]; omega

end Gsb
