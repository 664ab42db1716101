import Verif.Proof.Pick
import Verif.Props.Cgbr
/-
C27–C31: powers of two, highest bit, block sizes.
-/
namespace Gsb

/-- **C27.** For `1 ≤ n ≤ 2^63`, `next_power_of_two(n)` is the least power of two that is at least `n`. -/
theorem C27_next_power_of_two (n : Nat) (h1 : 1 ≤ n) (h2 : n ≤ 2 ^ 63) :
    ∃ k, nextPowerOfTwo n = 2 ^ k ∧ n ≤ 2 ^ k ∧ ∀ j, n ≤ 2 ^ j → 2 ^ k ≤ 2 ^ j := by
  by_cases h : n = 1
  · subst h
    exact ⟨0, nextPowerOfTwo_one, Nat.le_refl _, fun j hj => hj⟩
  · obtain ⟨k, hk1, hk2⟩ := exists_between (n := n) (by omega)
    have hk : k < 63 := by rw [← pow_lt_iff]; omega
    refine ⟨k + 1, nextPowerOfTwo_of_between hk hk1 hk2, hk2, fun j hj => ?_⟩
    have : k < j := by rw [← pow_lt_iff]; omega
    exact Nat.pow_le_pow_right (by omega) this

/-- C27: the other arguments give 0. -/
theorem C27_zero (n : Nat) (h : n = 0 ∨ 2 ^ 63 < n) (hn : n < 2 ^ 64) : nextPowerOfTwo n = 0 := by
  rcases h with rfl | h
  · exact nextPowerOfTwo_zero
  · have hl : (n - 1).log2 = 63 := (Nat.log2_eq_iff (by omega)).2 ⟨by omega, by omega⟩
    rw [nextPowerOfTwo_eq n (by omega) hn, if_neg (by omega), hl]; rfl

example : nextPowerOfTwo 5 = 8 ∧ nextPowerOfTwo 8 = 8 ∧ nextPowerOfTwo (2 ^ 63) = 2 ^ 63 := by decide

/-- `k` is the position of the highest bit set in `v`. -/
def HighestBit (v k : Nat) : Prop := 2 ^ k ≤ v ∧ v < 2 ^ (k + 1)

theorem highestBit_log2 {v : Nat} (h : 0 < v) : HighestBit v v.log2 :=
  ⟨Nat.log2_self_le (by omega), Nat.lt_log2_self⟩

/-- **C28** for the unsigned versions: the highest bit set, and 0 for 0. -/
theorem C28_highest_bit_set (v : Nat) :
    (0 < v → v < 2 ^ 32 → HighestBit v (highestBitSet32 v)) ∧
    (0 < v → v < 2 ^ 64 → HighestBit v (highestBitSet64 v)) ∧
    highestBitSet32 0 = 0 ∧ highestBitSet64 0 = 0 := by
  refine ⟨fun h0 h => ?_, fun h0 h => ?_, rfl, rfl⟩
  · rw [highestBitSet32_eq v h]; exact highestBit_log2 h0
  · rw [highestBitSet64_eq v h]; exact highestBit_log2 h0

/-- **C28** for the signed versions. -/
theorem C28_signed (v : Int) :
    (v < 0 → highestBitSetI32 v = -1 ∧ highestBitSetI64 v = -1) ∧
    (0 < v → v < 2 ^ 31 → ∃ k : Nat, highestBitSetI32 v = k ∧ HighestBit v.toNat k) ∧
    (0 < v → v < 2 ^ 63 → ∃ k : Nat, highestBitSetI64 v = k ∧ HighestBit v.toNat k) ∧
    highestBitSetI32 0 = 0 ∧ highestBitSetI64 0 = 0 := by
  refine ⟨fun h => ?_, fun h0 h => ?_, fun h0 h => ?_, rfl, rfl⟩
  · unfold highestBitSetI32 highestBitSetI64; rw [if_pos h, if_pos h]; exact ⟨rfl, rfl⟩
  · exact ⟨highestBitSet32 v.toNat, by unfold highestBitSetI32; rw [if_neg (by omega)],
      (C28_highest_bit_set v.toNat).1 (by omega) (by omega)⟩
  · exact ⟨highestBitSet64 v.toNat, by unfold highestBitSetI64; rw [if_neg (by omega)],
      (C28_highest_bit_set v.toNat).2.1 (by omega) (by omega)⟩

example : highestBitSet64 0x12345 = 16 ∧ highestBitSet32 0x80000001 = 31 ∧ highestBitSetI32 (-5) = -1 := by decide

/-! ### pick_block_size -/

/-- `k` is the binary logarithm of `n`, rounded up. -/
def CeilLog2 (n k : Nat) : Prop := n ≤ 2 ^ k ∧ ∀ j, n ≤ 2 ^ j → k ≤ j

theorem CeilLog2.unique {n k k' : Nat} (h : CeilLog2 n k) (h' : CeilLog2 n k') : k = k' :=
  Nat.le_antisymm (h.2 _ h'.1) (h'.2 _ h.1)

theorem CeilLog2.lt {n k : Nat} (h : CeilLog2 n k) (hk : 0 < k) : 2 ^ (k - 1) < n := by
  by_contra hc
  have := h.2 (k - 1) (by omega)
  omega

/-- When a matrix is large enough to be blocked: with `rb`, `cb` the logarithms of its dimensions, for several workers
more than `8 * workers` rows and columns after rounding up (and the rounded dimensions fit an `int`), for one worker
more than two rows and columns. -/
def LargeEnough (rb cb workers : Nat) : Prop :=
  if 1 < workers then 8 * workers < 2 ^ rb ∧ 8 * workers < 2 ^ cb ∧ rb ≤ 30 ∧ cb ≤ 30 else 1 < rb ∧ 1 < cb

/-- **C29.** For 32- and 64-bit indices and dimensions up to `2^31`, `pick_block_size` always returns.  It returns 0
exactly if the matrix is not large enough.  Otherwise it returns a power of two `2^k` which is
* at most the dimensions, so that there is a full block each way, and its square fits the index type;
* for several workers, small enough to have at least `4 * workers` block-rows;
* such that a block of `x` or `y` fits in `L2SIZE`, provided one of the dimensions times the value size does not exceed
  the index type. -/
theorem C29_pick_block_size (W : Nat) (hW : W = 32 ∨ W = 64) (logbeta : Nat → Nat → Nat) (m n val workers rb cb : Nat)
    (hm : 1 ≤ m ∧ m ≤ 2 ^ 31) (hn : 1 ≤ n ∧ n ≤ 2 ^ 31) (hrb : CeilLog2 m rb) (hcb : CeilLog2 n cb)
    (hval : val ≤ l2Size) (hw : 8 * workers < 2 ^ 31) :
    (¬ LargeEnough rb cb workers → pickBlockSize W logbeta m n val workers = .ok 0) ∧
    (LargeEnough rb cb workers → ∃ k, pickBlockSize W logbeta m n val workers = .ok (2 ^ k) ∧
      2 ^ k ≤ m ∧ 2 ^ k ≤ n ∧ 2 * k < W ∧
      (1 < workers → 4 * workers ≤ m / 2 ^ k) ∧
      (2 * m * val ≤ 2 ^ W ∨ 2 * n * val ≤ 2 ^ W → 2 ^ k * val ≤ l2Size)) := by
  obtain ⟨b1, b2⟩ := bitsOf_spec hW hm.1 hm.2
  obtain ⟨c1, c2⟩ := bitsOf_spec hW hn.1 hn.2
  have e1 : bitsOf W m = rb := CeilLog2.unique b2 hrb
  have e2 : bitsOf W n = cb := CeilLog2.unique c2 hcb
  have h := pick_spec hW logbeta m n val workers hval hw b1 c1
  unfold SizeReq at h
  rw [e1, e2] at h
  refine ⟨h.1, fun hl => ?_⟩
  obtain ⟨k, h1, h2, h3, h4, h5, h6⟩ := h.2 hl
  have hm1 := hrb.lt (by omega)
  have hn1 := hcb.lt (by omega)
  have hkm : 2 ^ k ≤ 2 ^ (rb - 1) := Nat.pow_le_pow_right (by omega) (by omega)
  have hkn : 2 ^ k ≤ 2 ^ (cb - 1) := Nat.pow_le_pow_right (by omega) (by omega)
  refine ⟨k, h1, by omega, by omega, by omega, fun hp => ?_, fun hf => h6 ?_⟩
  · have h7 := h5 hp
    rw [Nat.le_div_iff_mul_le (Nat.two_pow_pos k)]
    have h8 : 2 ^ (rb - k) * 2 ^ k = 2 * 2 ^ (rb - 1) := by
      rw [← Nat.pow_add, show 2 * 2 ^ (rb - 1) = 2 ^ (rb - 1 + 1) by rw [Nat.pow_succ]; omega]
      congr 1; omega
    have h9 := Nat.mul_le_mul_right (2 ^ k) h7
    have h10 : slackness * workers * 2 ^ k = 2 * (4 * workers * 2 ^ k) := by unfold slackness; ring
    omega
  · have dbl : ∀ b j, 0 < j → 2 ^ (j - 1) < b → 2 * b * val ≤ 2 ^ W → 2 ^ j * val < 2 ^ W := by
      intro b j hj hb hle
      by_cases hv : val = 0
      · subst hv; simp
      · have hp : 2 ^ j = 2 * 2 ^ (j - 1) := by rw [show j = j - 1 + 1 by omega, Nat.pow_succ]; simp; omega
        have : 2 ^ j * val < 2 * b * val := Nat.mul_lt_mul_of_pos_right (by omega) (by omega)
        omega
    rcases hf with hf | hf
    · exact Or.inl (dbl m rb (by omega) hm1 hf)
    · exact Or.inr (dbl n cb (by omega) hn1 hf)

/-- C29: empty matrices, and with 32-bit indices those with more than `2^31` rows (the rounded dimension is truncated
to 0), always get 0. -/
theorem C29_degenerate (logbeta : Nat → Nat → Nat) (m n val workers : Nat) (hval : val ≤ l2Size) (hw : 8 * workers < 2 ^ 31)
    (hm : m < 2 ^ 32) (hn : n < 2 ^ 32) (h : m = 0 ∨ 2 ^ 31 < m ∨ n = 0 ∨ 2 ^ 31 < n) :
    pickBlockSize 32 logbeta m n val workers = .ok 0 := by
  have hb : ∀ v, v < 2 ^ 32 → bitsOf 32 v ≤ 31 := by
    intro v hv
    by_cases h1 : v = 0
    · subst h1; rw [bitsOf_zero]; omega
    · by_cases h2 : 2 ^ 31 < v
      · rw [bitsOf_huge h2 hv]; omega
      · exact (bitsOf_spec (Or.inl rfl) (by omega) (by omega)).1
  refine (pick_spec (Or.inl rfl) logbeta m n val workers hval hw (hb m hm) (hb n hn)).1 ?_
  have hz : bitsOf 32 m = 0 ∨ bitsOf 32 n = 0 := by
    rcases h with rfl | h | rfl | h
    · exact Or.inl (bitsOf_zero _)
    · exact Or.inl (bitsOf_huge h hm)
    · exact Or.inr (bitsOf_zero _)
    · exact Or.inr (bitsOf_huge h hn)
  unfold SizeReq
  split
  · rename_i hp
    rintro ⟨h1, h2, -⟩
    unfold slackness at h1 h2
    rcases hz with hz | hz
    · rw [hz] at h1; omega
    · rw [hz] at h2; omega
  · rintro ⟨h1, h2⟩
    omega

/-- C29, 32-bit indices and values of at most eight bytes: a block always fits in `L2SIZE`. -/
theorem C29_fits (logbeta : Nat → Nat → Nat) (m n val workers : Nat) (hm : m < 2 ^ 32) (hn : n < 2 ^ 32) (hval : val ≤ 8)
    (hw : 8 * workers < 2 ^ 31) :
    ∃ b, pickBlockSize 32 logbeta m n val workers = .ok b ∧ b ≤ 2 ^ 15 ∧ b * val ≤ l2Size := by
  have hv : val ≤ l2Size := by unfold l2Size; omega
  have key : ∃ b, pickBlockSize 32 logbeta m n val workers = .ok b ∧ b ≤ 2 ^ 15 := by
    by_cases hd : m = 0 ∨ 2 ^ 31 < m ∨ n = 0 ∨ 2 ^ 31 < n
    · exact ⟨0, C29_degenerate logbeta m n val workers hv hw hm hn hd, by omega⟩
    · have sm := bitsOf_spec (W := 32) (m := m) (Or.inl rfl) (by omega) (by omega)
      have sn := bitsOf_spec (W := 32) (m := n) (Or.inl rfl) (by omega) (by omega)
      have h := pick_spec (Or.inl rfl) logbeta m n val workers hv hw sm.1 sn.1
      by_cases hr : SizeReq 32 m n workers
      · obtain ⟨k, h1, -, -, h4, -⟩ := h.2 hr
        exact ⟨_, h1, Nat.pow_le_pow_right (by omega) (by omega)⟩
      · exact ⟨0, h.1 hr, by omega⟩
  obtain ⟨b, h1, h2⟩ := key
  exact ⟨b, h1, h2, Nat.le_trans (Nat.mul_le_mul h2 hval) (by decide)⟩

/-- The proviso on the value size is needed: with 32-bit indices and 16-byte values the space is computed modulo `2^32`,
so that for a `2^30 × 2^30` matrix a block of 512 KiB is returned, twice `L2SIZE`.  (`ceil(log2(sqrt(sqrt(2^60)))) + 2 = 17`.) -/
theorem C29_l2_overflow : pickBlockSize 32 (fun _ _ => 17) (2 ^ 30) (2 ^ 30) 16 1 = .ok (2 ^ 15) ∧ l2Size < 2 ^ 15 * 16 :=
  ⟨by decide +kernel, by decide⟩

/-- With 64-bit indices and several workers, dimensions beyond `2^31` make it shift an `int` by 32 or more. -/
theorem C29_wide_undefined (logbeta : Nat → Nat → Nat) (m n val workers : Nat) (hp : 1 < workers) (hw : 8 * workers < 2 ^ 31)
    (h1 : 2 ^ 31 < m) (h2 : m ≤ 2 ^ 63) : pickBlockSize 64 logbeta m n val workers = .error .ub := by
  obtain ⟨k, hk1, hk2⟩ := exists_between (n := m) (by omega)
  have hk : k < 63 := by rw [← pow_lt_iff]; omega
  have hk3 : 30 < k := by
    have : 2 ^ 31 < 2 ^ (k + 1) := by omega
    rw [pow_lt_iff] at this; omega
  have hb : highestBitSet 64 (nextPowerOfTwo m % 2 ^ 64) = k + 1 := by
    rw [nextPowerOfTwo_of_between hk hk1 hk2, Nat.mod_eq_of_lt (pow_lt_iff.2 (by omega)), highestBitSet_pow (Or.inr rfl) (by omega)]
  unfold pickBlockSize sizeReq
  simp only
  rw [hb, if_pos hp, slackWorkers_ok hw, ok_bind]
  have : shl1 (k + 1) = .error .ub := by
    unfold shl1; rw [if_neg (by omega), if_neg (by omega)]
  rw [this]
  rfl

example : pickBlockSize 32 (fun _ _ => 12) 1000 2000 4 4 = .ok 32 ∧ 1000 / 32 = 31 ∧ CeilLog2 1000 10 ∧ LargeEnough 10 11 4 := by
  refine ⟨rfl, rfl, ⟨by decide, fun j hj => ?_⟩, by simp [LargeEnough]⟩
  by_contra hc
  have : 2 ^ j ≤ 2 ^ 9 := Nat.pow_le_pow_right (by omega) (by omega)
  omega

/-! ### C30 -/

theorem pick_le {logbeta : Nat → Nat → Nat} {m n val workers b : Nat} (hm : m < 2 ^ 32) (hn : n < 2 ^ 32) (hval : val ≤ 8)
    (hw : 8 * workers < 2 ^ 31) (h : pickBlockSize 32 logbeta m n val workers = .ok b) : b ≤ 2 ^ 15 := by
  obtain ⟨b', h1, h2, -⟩ := C29_fits logbeta m n val workers hm hn hval hw
  rw [h] at h1
  cases h1
  exact h2

/-- **C30.** With 32-bit indices, all blocks of the constant-size constructors built with the size picked for the
matrix (if it is not 0) have fewer than `2^16` rows and columns: local indices fit 16 bits. -/
theorem C30_blocks_fit (logbeta : Nat → Nat → Nat) (rows columns val workers b : Nat) (hr : 1 ≤ rows) (hc : 1 ≤ columns)
    (hrM : rows + 1 < 2 ^ 32) (hcM : columns + 1 < 2 ^ 32) (hval : val ≤ 8) (hw : 8 * workers < 2 ^ 31)
    (h : pickBlockSize 32 logbeta rows columns val workers = .ok b) (hb : b ≠ 0) :
    ∃ br ro bc co, constOffsets (2 ^ 32) rows b = .ok (br, ro) ∧ constOffsets (2 ^ 32) columns b = .ok (bc, co) ∧
      Partition ro br rows ∧ Partition co bc columns ∧ BlocksAtMost ro (2 ^ 16 - 1) ∧ BlocksAtMost co (2 ^ 16 - 1) := by
  have hle := pick_le (by omega) (by omega) hval hw h
  exact ⟨_, _, _, _, constOffsets_spec (by omega) (by omega) hrM, constOffsets_spec (by omega) (by omega) hcM,
    constOff_partition rows b, constOff_partition columns b, blocksAtMost_const (by omega) (by omega),
    blocksAtMost_const (by omega) (by omega)⟩

/-- **C30**, end to end: CGBR with 16-bit local indices, built with the picked block size, multiplies exactly. -/
theorem C30_cgbr {T : Type} [CommSemiring T] (logbeta : Nat → Nat → Nat) (rows columns val workers b : Nat)
    (choose : Nat → Nat → Nat → BlockChoice) (heavy : Nat → Nat → List Nat → Bool) (es : List (Element T))
    (hdup : (∀ rs cs n, choose rs cs n ≠ .dense) ∨ Distinct (ents es))
    (hrM : rows + 1 < 2 ^ 32) (hcM : columns + 1 < 2 ^ 32) (hval : val ≤ 8) (hw0 : 0 < workers) (hw : 8 * workers < 2 ^ 31)
    (h : pickBlockSize 32 logbeta rows columns val workers = .ok b) (hb : b ≠ 0)
    (hne : es ≠ []) (hlen : 2 * (es.length + 2) ≤ 2 ^ 32)
    (hgrid : max 1 (rows / b) * max 1 (columns / b) < 2 ^ 32) (hin : InRange (ents es) rows columns) :
    ∃ A es', cooToCgbrConst (2 ^ 32) (2 ^ 16) workers choose heavy es rows columns b b = .ok (A, es') ∧
      ∀ nx ny, columns ≤ nx → rows ≤ ny → ∀ x y : Nat → T,
        A.spmv (2 ^ 32) (Buf.full nx x) (Buf.full ny y) = .ok (Buf.full ny (spmvSum (ents es) x y)) := by
  have hle := pick_le (by omega) (by omega) hval hw h
  obtain ⟨A, es', h1, h2⟩ := C11_cgbr_const_bound (2 ^ 32) (2 ^ 16) (2 ^ 16 - 1) workers rows columns b b choose heavy es (by omega)
    (by omega) (by omega) (by omega) (by omega)
    (fun rs cs n a1 a2 _ _ => Nat.lt_of_le_of_lt (Nat.mul_le_mul a1 a2) (by norm_num)) hdup hw0 hne hlen hgrid hrM hcM hin
  exact ⟨A, es', h1, fun nx ny hx hy x y => (h2 nx ny hx hy x y).1⟩

/-! ### C31 -/

/-- **C31.** A matrix with at most `4 * workers` rows (several workers) or two rows (one worker) gets block size 0 … -/
theorem C31_small_zero (logbeta : Nat → Nat → Nat) (m n val workers : Nat) (hn : n < 2 ^ 32)
    (hval : val ≤ l2Size) (hw : 8 * workers < 2 ^ 31) (hsmall : m ≤ max 2 (4 * workers) ∧ (1 < workers ∨ m ≤ 2)) :
    pickBlockSize 32 logbeta m n val workers = .ok 0 := by
  by_cases hd : m = 0 ∨ 2 ^ 31 < m ∨ n = 0 ∨ 2 ^ 31 < n
  · exact C29_degenerate logbeta m n val workers hval hw (by omega) hn hd
  · have sm := bitsOf_spec (W := 32) (m := m) (Or.inl rfl) (by omega) (by omega)
    have sn := bitsOf_spec (W := 32) (m := n) (Or.inl rfl) (by omega) (by omega)
    refine (pick_spec (Or.inl rfl) logbeta m n val workers hval hw sm.1 sn.1).1 ?_
    unfold SizeReq
    have hlt : bitsOf 32 m = 0 ∨ 2 ^ (bitsOf 32 m) < 2 * m := by
      by_cases h0 : bitsOf 32 m = 0
      · exact Or.inl h0
      · have := CeilLog2.lt sm.2 (by omega)
        rw [show bitsOf 32 m = bitsOf 32 m - 1 + 1 by omega, Nat.pow_succ]
        omega
    split
    · rename_i hp
      rintro ⟨h1, -⟩
      unfold slackness at h1
      rcases hlt with h | h
      · rw [h] at h1; omega
      · omega
    · rintro ⟨h1, -⟩
      have := sm.2.2 1 (by omega)
      omega

/-- **C31** … and every constructor with constant block sizes, given 0, divides by zero whatever the matrix. -/
theorem C31_divides_by_zero {T : Type} [Add T] [Mul T] [Zero T] (M S workers rows columns bc : Nat)
    (choose : Nat → Nat → Nat → BlockChoice) (heavy : Nat → Nat → List Nat → Bool) (es : List (Element T)) :
    cooToCsbrConst M workers es rows columns 0 bc = .error .divZero ∧
    cooToCsbr2Const M es rows columns 0 bc = .error .divZero ∧
    cooToCsbr3 M S es rows columns 0 = .error .divZero ∧
    cooToCgbrConst M S workers choose heavy es rows columns 0 bc = .error .divZero :=
  ⟨rfl, rfl, rfl, rfl⟩

example : pickBlockSize 32 (fun _ _ => 5) 16 1000 4 4 = .ok 0 := rfl

end Gsb
