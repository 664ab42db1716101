import Verif.Proof.Bits
import Mathlib.Tactic.Ring
import Mathlib.Tactic.Positivity
import Mathlib.Algebra.Order.Ring.Int
/-
`pick_block_size`.
-/
namespace Gsb

/-- The variables `rowbits`, `colbits`. -/
def bitsOf (W m : Nat) : Nat := highestBitSet W (nextPowerOfTwo m % 2 ^ W)

theorem log2_two_pow' (k : Nat) : (2 ^ k).log2 = k := Nat.log2_two_pow

theorem highestBitSet_pow {W k : Nat} (hW : W = 32 ∨ W = 64) (hk : k < W) : highestBitSet W (2 ^ k) = k := by
  unfold highestBitSet
  have hp : 2 ^ k < 2 ^ W := Nat.pow_lt_pow_right (by omega) hk
  rcases hW with rfl | rfl
  · rw [if_pos rfl, highestBitSet32_eq _ hp, log2_two_pow']
  · rw [if_neg (by omega), highestBitSet64_eq _ hp, log2_two_pow']

theorem highestBitSet_max {W : Nat} (hW : W = 32 ∨ W = 64) : highestBitSet W (2 ^ W - 1) = W - 1 := by
  rcases hW with rfl | rfl <;> decide

theorem highestBitSet_zero (W : Nat) : highestBitSet W 0 = 0 := by
  unfold highestBitSet; split <;> rfl

/-- The least `k` with `m ≤ 2 ^ k`. -/
theorem bitsOf_spec {W m : Nat} (hW : W = 32 ∨ W = 64) (h1 : 1 ≤ m) (h2 : m ≤ 2 ^ 31) :
    bitsOf W m ≤ 31 ∧ m ≤ 2 ^ bitsOf W m ∧ ∀ j, m ≤ 2 ^ j → bitsOf W m ≤ j := by
  unfold bitsOf
  by_cases h : m = 1
  · subst h
    rw [nextPowerOfTwo_one, Nat.mod_eq_of_lt (Nat.one_lt_two_pow (by omega)), show (1 : Nat) = 2 ^ 0 from rfl,
      highestBitSet_pow hW (by omega)]
    exact ⟨by omega, by simp, fun _ _ => by omega⟩
  · obtain ⟨k, hk1, hk2⟩ := exists_between (n := m) (by omega)
    have hk : k < 31 := by rw [← pow_lt_iff]; omega
    have hlt : 2 ^ (k + 1) < 2 ^ W := pow_lt_iff.2 (by omega)
    rw [nextPowerOfTwo_of_between (by omega) hk1 hk2, Nat.mod_eq_of_lt hlt, highestBitSet_pow hW (by omega)]
    refine ⟨by omega, hk2, fun j hj => ?_⟩
    have : 2 ^ k < 2 ^ j := by omega
    rw [pow_lt_iff] at this
    omega

theorem bitsOf_zero (W : Nat) : bitsOf W 0 = 0 := by
  unfold bitsOf; rw [nextPowerOfTwo_zero, Nat.zero_mod, highestBitSet_zero]

theorem bitsOf_huge {m : Nat} (h1 : 2 ^ 31 < m) (h2 : m < 2 ^ 32) : bitsOf 32 m = 0 := by
  unfold bitsOf
  rw [nextPowerOfTwo_of_between (k := 31) (by omega) h1 (by omega), show 31 + 1 = 32 from rfl, Nat.mod_self, highestBitSet_zero]

theorem shl1_ok {n : Nat} (h : n < 31) : shl1 n = .ok (2 ^ n) := by unfold shl1; rw [if_pos h]

theorem toUnsigned_nat {M a : Nat} (h : a < M) : toUnsigned M (a : Int) = a := by
  unfold toUnsigned
  rw [← Int.natCast_emod, Nat.mod_eq_of_lt h]; rfl

theorem lowMask_ok {W k : Nat} (hW : 32 ≤ W) (hk : k < 31) : lowMask (2 ^ W) k = .ok (2 ^ k - 1) := by
  unfold lowMask
  have h1 : 1 ≤ 2 ^ k := Nat.one_le_two_pow
  have hp : 2 ^ k < 2 ^ W := pow_lt_iff.2 (by omega)
  rw [shl1_ok hk, ok_bind]
  have : (2 : Int) ^ k - 1 = ((2 ^ k - 1 : Nat) : Int) := by push_cast [h1]; ring
  rw [this, toUnsigned_nat (by omega), if_neg]
  · rfl
  · have : (0 : Int) < 2 ^ k := by positivity
    omega

theorem slackWorkers_ok {w : Nat} (h : slackness * w < 2 ^ 31) : slackWorkers w = .ok ((slackness * w : Nat) : Int) := by
  unfold slackWorkers; rw [if_pos h]

theorem intPow_lt {a k : Nat} : ((a : Nat) : Int) < 2 ^ k ↔ a < 2 ^ k := by exact_mod_cast Iff.rfl
theorem intPow_lt' {a k : Nat} : (2 : Int) ^ k < ((a : Nat) : Int) ↔ 2 ^ k < a := by exact_mod_cast Iff.rfl

theorem subM_one {W a : Nat} (hW : 32 ≤ W) (h1 : 1 ≤ a) (h2 : a < 2 ^ 32) : subM (2 ^ W) a 1 = a - 1 :=
  subM_eq (Nat.lt_of_lt_of_le h2 (Nat.pow_le_pow_right (by omega) hW)) h1

theorem l2Loop_spec {W l2 low val : Nat} (hW : 32 ≤ W) (hval : val ≤ l2Size) (hlow : low < 32) (hle : l2 ≤ 2 ^ low * val) :
    ∃ l2' low', l2Loop (2 ^ W) l2 low = .ok (l2', low') ∧ low' ≤ low ∧ (l2 = 2 ^ low * val → 2 ^ low' * val ≤ l2Size) := by
  unfold l2Loop
  obtain ⟨⟨l2', low'⟩, h1, ⟨h2, h3, h4⟩, h5⟩ := whileLoop_inv
    (cond := fun s : Nat × Nat => .ok (decide (l2Size < s.1))) (body := fun s => .ok (s.1 / 2, subM (2 ^ W) s.2 1))
    (fun s => s.1 ≤ 2 ^ s.2 * val ∧ s.2 ≤ low ∧ (l2 = 2 ^ low * val → s.1 = 2 ^ s.2 * val)) (fun s => s.2)
    (by
      rintro ⟨a, b⟩ ⟨i1, i2, i3⟩
      refine ⟨_, rfl, fun hc => ?_⟩
      simp only [decide_eq_true_eq] at hc i1 i2 i3
      have hb : b ≠ 0 := by
        rintro rfl
        simp at i1; omega
      have e : subM (2 ^ W) b 1 = b - 1 := subM_one hW (by omega) (by omega)
      have ep : 2 ^ b * val = 2 * (2 ^ (b - 1) * val) := by
        rw [show b = (b - 1) + 1 by omega, Nat.pow_succ, Nat.add_sub_cancel]; ring
      refine ⟨_, rfl, ⟨?_, ?_, ?_⟩, ?_⟩
      · rw [e]; simp only; omega
      · rw [e]; simp only; omega
      · intro h; rw [e]; have := i3 h; simp only; omega
      · rw [e]; simp only; omega)
    65 (l2, low) ⟨hle, Nat.le_refl _, fun h => h⟩ (by simp only; omega)
  refine ⟨l2', low', h1, h3, fun h => ?_⟩
  have := h4 h
  simp only [Except.ok.injEq, decide_eq_false_iff_not] at h5
  simp only at this h5
  omega

/-- The requirement tested at the beginning. -/
def SizeReq (W m n workers : Nat) : Prop :=
  if 1 < workers then slackness * workers < 2 ^ bitsOf W m ∧ slackness * workers < 2 ^ bitsOf W n ∧ bitsOf W m ≤ 30 ∧ bitsOf W n ≤ 30
  else 1 < bitsOf W m ∧ 1 < bitsOf W n

theorem shl1_31 : shl1 31 = .ok (-2 ^ 31) := rfl

theorem pick_spec {W : Nat} (hW : W = 32 ∨ W = 64) (logbeta : Nat → Nat → Nat) (m n val workers : Nat)
    (hval : val ≤ l2Size) (hw : slackness * workers < 2 ^ 31) (hm : bitsOf W m ≤ 31) (hn : bitsOf W n ≤ 31) :
    (¬ SizeReq W m n workers → pickBlockSize W logbeta m n val workers = .ok 0) ∧
    (SizeReq W m n workers → ∃ k, pickBlockSize W logbeta m n val workers = .ok (2 ^ k) ∧
      k + 1 ≤ bitsOf W m ∧ k + 1 ≤ bitsOf W n ∧ 2 * k ≤ W - 1 ∧
      (1 < workers → slackness * workers ≤ 2 ^ (bitsOf W m - k)) ∧
      (2 ^ (bitsOf W m) * val < 2 ^ W ∨ 2 ^ (bitsOf W n) * val < 2 ^ W → 2 ^ k * val ≤ l2Size)) := by
  have hWge : 32 ≤ W := by omega
  unfold pickBlockSize
  simp only
  rw [← bitsOf, ← bitsOf]
  unfold SizeReq
  generalize hrb : bitsOf W m = rb at *
  generalize hcb : bitsOf W n = cb at *
  -- the requirement
  have hreq : sizeReq workers rb cb =
      .ok (decide (if 1 < workers then slackness * workers < 2 ^ rb ∧ slackness * workers < 2 ^ cb ∧ rb ≤ 30 ∧ cb ≤ 30
        else 1 < rb ∧ 1 < cb)) := by
    unfold sizeReq
    by_cases hp : 1 < workers
    · simp only [hp, if_true]
      rw [slackWorkers_ok hw, ok_bind]
      have hneg : ¬ (((slackness * workers : Nat) : Int) < -2 ^ 31) := by
        have : (0 : Int) ≤ ((slackness * workers : Nat) : Int) := Int.natCast_nonneg _
        omega
      by_cases hr : rb = 31
      · subst hr
        rw [shl1_31, ok_bind, if_neg hneg]
        simp
        rfl
      · rw [shl1_ok (by omega), ok_bind]
        by_cases h1 : slackness * workers < 2 ^ rb
        · rw [if_pos (intPow_lt.2 h1)]
          by_cases hc : cb = 31
          · subst hc
            rw [shl1_31, ok_bind, decide_eq_false hneg]
            simp
            rfl
          · rw [shl1_ok (by omega), ok_bind]
            have : rb ≤ 30 ∧ cb ≤ 30 := by omega
            simp only [intPow_lt, h1, this, and_true, true_and]
            rfl
        · rw [if_neg (by rw [intPow_lt]; exact h1)]
          simp only [h1, false_and, decide_false]
          rfl
    · simp only [hp, if_false, Bool.decide_and]
      rfl
  rw [hreq, ok_bind]
  constructor
  · intro h
    rw [decide_eq_false h]
    rfl
  · intro h
    rw [decide_eq_true h]
    simp only [Bool.not_true, Bool.false_eq_true, if_false]
    have hrb2 : 1 < rb := by
      by_cases hp : 1 < workers
      · rw [if_pos hp] at h
        by_contra hc
        have : 2 ^ rb ≤ 2 ^ 1 := Nat.pow_le_pow_right (by omega) (by omega)
        unfold slackness at h
        omega
      · rw [if_neg hp] at h; exact h.1
    have hcb2 : 1 < cb := by
      by_cases hp : 1 < workers
      · rw [if_pos hp] at h
        by_contra hc
        have : 2 ^ cb ≤ 2 ^ 1 := Nat.pow_le_pow_right (by omega) (by omega)
        unfold slackness at h
        omega
      · rw [if_neg hp] at h; exact h.2
    have hM32 : 2 ^ 32 ≤ 2 ^ W := Nat.pow_le_pow_right (by omega) hWge
    rw [highestBitSet_max hW, subM_one hWge (by omega) (by omega), subM_one hWge (by omega) (by omega),
      subM_eq (M := 2 ^ W) (a := rb) (b := rb - 1) (by omega) (by omega)]
    -- slackness
    have hpar : ∃ hi lo, slackLoop (2 ^ W) workers (rb - (rb - 1)) (rb - 1) = .ok (hi, lo) ∧ hi + lo = rb ∧ 1 ≤ hi ∧
        (1 < workers → slackness * workers ≤ 2 ^ hi) := by
      unfold slackLoop
      by_cases hp : 1 < workers
      · rw [if_pos hp] at h
        simp only [hp, if_true]
        obtain ⟨⟨hi, lo⟩, h1, ⟨h2, h3⟩, h5⟩ := whileLoop_inv
          (cond := fun s : Nat × Nat => do
            let a ← shl1 s.1
            let sw ← slackWorkers workers
            pure (decide (a < sw)))
          (body := fun s => .ok (addM (2 ^ W) s.1 1, subM (2 ^ W) s.2 1))
          (fun s => s.1 + s.2 = rb ∧ 1 ≤ s.1) (fun s => s.2)
          (by
            rintro ⟨a, b⟩ ⟨i1, i2⟩
            simp only at i1 i2
            simp only
            rw [shl1_ok (by omega), ok_bind, slackWorkers_ok hw, ok_bind]
            refine ⟨_, rfl, fun hc => ?_⟩
            rw [decide_eq_true_eq, intPow_lt'] at hc
            have hlt : a < rb := by
              rw [← pow_lt_iff]; omega
            refine ⟨_, rfl, ⟨?_, ?_⟩, ?_⟩
            · rw [addM_eq (by omega), subM_one hWge (by omega) (by omega)]; simp only; omega
            · rw [addM_eq (by omega)]; simp only; omega
            · rw [subM_one hWge (by omega) (by omega)]; simp only; omega)
          65 (rb - (rb - 1), rb - 1) ⟨by simp only; omega, by simp only; omega⟩ (by simp only; omega)
        simp only at h2 h3
        simp only at h5
        rw [shl1_ok (by omega), ok_bind, slackWorkers_ok hw, ok_bind] at h5
        have h6 : ¬ 2 ^ hi < slackness * workers := by
          rw [← intPow_lt']
          intro hlt
          rw [decide_eq_true hlt] at h5
          cases h5
        exact ⟨hi, lo, h1, h2, h3, fun _ => by omega⟩
      · simp only [hp, if_false]
        exact ⟨_, _, rfl, by omega, by omega, fun h => h.elim⟩
    obtain ⟨hi, lo, e1, e2, e3, e4⟩ := hpar
    rw [e1, ok_bind]
    simp only
    -- y
    have space : ∀ b, b ≤ 30 → toUnsigned (2 ^ 64) ((2 : Int) ^ b) * val % 2 ^ 64 % 2 ^ W ≤ 2 ^ b * val ∧
        (2 ^ (b + 1) * val < 2 ^ W → toUnsigned (2 ^ 64) ((2 : Int) ^ b) * val % 2 ^ 64 % 2 ^ W = 2 ^ b * val) := by
      intro b hb
      have hb64 : 2 ^ b < 2 ^ 64 := pow_lt_iff.2 (by omega)
      have : ((2 : Int) ^ b) = ((2 ^ b : Nat) : Int) := by push_cast; rfl
      rw [this, toUnsigned_nat hb64]
      refine ⟨Nat.le_trans (Nat.mod_le _ _) (Nat.mod_le _ _), fun hlt => ?_⟩
      have hW64 : 2 ^ W ≤ 2 ^ 64 := Nat.pow_le_pow_right (by omega) (by omega)
      have : 2 ^ b * val ≤ 2 ^ (b + 1) * val := Nat.mul_le_mul_right _ (Nat.pow_le_pow_right (by omega) (by omega))
      rw [Nat.mod_eq_of_lt (by omega), Nat.mod_eq_of_lt (by omega)]
    have hs1 := space lo (by omega)
    have hs2 := space (cb - 1) (by omega)
    rw [shl1_ok (by omega), ok_bind]
    obtain ⟨l2a, low1, f1, f2, f3⟩ := l2Loop_spec hWge hval (low := lo) (by omega) hs1.1
    rw [f1, ok_bind]
    simp only
    rw [shl1_ok (by omega), ok_bind]
    obtain ⟨l2b, low2, g1, g2, g3⟩ := l2Loop_spec hWge hval (low := cb - 1) (by omega) hs2.1
    rw [g1, ok_bind]
    simp only
    -- the two together fit the index type
    obtain ⟨⟨r1, c1⟩, k1, ⟨k2, k3⟩, k4⟩ := whileLoop_inv
      (cond := fun s : Nat × Nat => .ok (decide (W - 1 < addM (2 ^ W) s.1 s.2)))
      (body := fun s => .ok (if s.2 < s.1 then (subM (2 ^ W) s.1 1, s.2) else (s.1, subM (2 ^ W) s.2 1)))
      (fun s => s.1 ≤ low1 ∧ s.2 ≤ low2) (fun s => s.1 + s.2)
      (by
        rintro ⟨a, b⟩ ⟨i1, i2⟩
        simp only at i1 i2
        refine ⟨_, rfl, fun hc => ?_⟩
        simp only at hc
        rw [addM_eq (by omega), decide_eq_true_eq] at hc
        refine ⟨_, rfl, ?_⟩
        simp only
        by_cases hlt : b < a
        · rw [if_pos hlt, subM_one hWge (by omega) (by omega)]
          exact ⟨⟨by simp only; omega, by simp only; omega⟩, by simp only; omega⟩
        · rw [if_neg hlt, subM_one hWge (by omega) (by omega)]
          exact ⟨⟨by simp only; omega, by simp only; omega⟩, by simp only; omega⟩)
      129 (low1, low2) ⟨Nat.le_refl _, Nat.le_refl _⟩ (by simp only; omega)
    rw [k1, ok_bind]
    simp only at k2 k3 k4
    rw [addM_eq (by omega), Except.ok.injEq, decide_eq_false_iff_not] at k4
    simp only
    -- square
    obtain ⟨r2, m1, ⟨m2, m3⟩, m4⟩ := whileLoop_inv
      (cond := fun r : Nat => .ok (decide (c1 < r))) (body := fun r => .ok (subM (2 ^ W) r 1))
      (fun r => r ≤ r1 ∧ min r1 c1 ≤ r) (fun r => r)
      (by
        rintro a ⟨i1, i2⟩
        refine ⟨_, rfl, fun hc => ?_⟩
        rw [decide_eq_true_eq] at hc
        refine ⟨_, rfl, ?_⟩
        rw [subM_one hWge (by omega) (by omega)]
        omega)
      129 r1 ⟨Nat.le_refl _, by omega⟩ (by omega)
    rw [m1, ok_bind]
    rw [Except.ok.injEq, decide_eq_false_iff_not] at m4
    obtain ⟨c2, n1, ⟨n2, n3⟩, n4⟩ := whileLoop_inv
      (cond := fun c : Nat => .ok (decide (r2 < c))) (body := fun c => .ok (subM (2 ^ W) c 1))
      (fun c => c ≤ c1 ∧ min r2 c1 ≤ c) (fun c => c)
      (by
        rintro a ⟨i1, i2⟩
        refine ⟨_, rfl, fun hc => ?_⟩
        rw [decide_eq_true_eq] at hc
        refine ⟨_, rfl, ?_⟩
        rw [subM_one hWge (by omega) (by omega)]
        omega)
      129 c1 ⟨Nat.le_refl _, by omega⟩ (by omega)
    rw [n1, ok_bind]
    rw [Except.ok.injEq, decide_eq_false_iff_not] at n4
    obtain rfl : c2 = r2 := by omega
    rw [cassert_ok (by simp), ok_bind, lowMask_ok hWge (k := c2) (by omega), ok_bind, ok_bind]
    have fin : ∀ k, k ≤ c2 → addM (2 ^ W) (2 ^ k - 1) 1 = 2 ^ k := by
      intro k hk
      have h1 : 1 ≤ 2 ^ k := Nat.one_le_two_pow
      have : 2 ^ k < 2 ^ W := pow_lt_iff.2 (by omega)
      rw [addM_eq (by omega)]; omega
    have conc : ∀ k, k ≤ c2 → k + 1 ≤ rb ∧ k + 1 ≤ cb ∧ 2 * k ≤ W - 1 ∧ (1 < workers → slackness * workers ≤ 2 ^ (rb - k)) ∧
        (2 ^ rb * val < 2 ^ W ∨ 2 ^ cb * val < 2 ^ W → 2 ^ k * val ≤ l2Size) := by
      intro k hk
      refine ⟨by omega, by omega, by omega, ?_, ?_⟩
      · intro hp
        exact Nat.le_trans (e4 hp) (Nat.pow_le_pow_right (by omega) (by omega))
      · rintro (ht | ht)
        · have hq : 2 ^ (lo + 1) * val ≤ 2 ^ rb * val := Nat.mul_le_mul_right _ (Nat.pow_le_pow_right (by omega) (by omega))
          have := f3 (hs1.2 (by omega))
          exact Nat.le_trans (Nat.mul_le_mul_right _ (Nat.pow_le_pow_right (by omega) (by omega))) this
        · have hq : cb - 1 + 1 = cb := by omega
          rw [hq] at hs2
          have := g3 (hs2.2 ht)
          exact Nat.le_trans (Nat.mul_le_mul_right _ (Nat.pow_le_pow_right (by omega) (by omega))) this
    by_cases hlb : logbeta m n % 2 ^ W < c2
    · rw [if_pos hlb, lowMask_ok hWge (by omega), ok_bind]
      refine ⟨logbeta m n % 2 ^ W, ?_, conc _ (by omega)⟩
      rw [fin _ (by omega)]; rfl
    · rw [if_neg hlb]
      refine ⟨c2, ?_, conc _ (by omega)⟩
      rw [fin _ (by omega)]; rfl

end Gsb
