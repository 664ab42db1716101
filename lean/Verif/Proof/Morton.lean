import Verif.Model.Morton
import Verif.Proof.StableSort
import Mathlib.Tactic.IntervalCases
namespace Gsb

/-- Specification of the spreading: bit `k` of `n` moves to position `2k`. -/
def spreadNat (n : Nat) : Nat := if h : n = 0 then 0 else n % 2 + 4 * spreadNat (n / 2)
termination_by n
decreasing_by omega

theorem spreadNat_zero : spreadNat 0 = 0 := by rw [spreadNat]; simp

theorem spreadNat_eq (n : Nat) : spreadNat n = n % 2 + 4 * spreadNat (n / 2) := by
  by_cases h : n = 0
  · subst h; simp [spreadNat_zero]
  · rw [spreadNat]; simp [h]

theorem spreadNat_lt {a b : Nat} (h : a < b) : spreadNat a < spreadNat b := by
  induction b using Nat.strongRecOn generalizing a with
  | _ b ih =>
    rw [spreadNat_eq a, spreadNat_eq b]
    rcases Nat.lt_or_ge (a / 2) (b / 2) with h1 | h1
    · have := ih (b / 2) (by omega) h1
      omega
    · have : a / 2 = b / 2 := by omega
      rw [this]; omega

theorem spreadNat_le_iff {a b : Nat} : spreadNat a ≤ spreadNat b ↔ a ≤ b := by
  constructor
  · intro h
    by_contra hc
    exact absurd (spreadNat_lt (by omega : b < a)) (by omega)
  · intro h
    rcases Nat.lt_or_eq_of_le h with h | h
    · exact Nat.le_of_lt (spreadNat_lt h)
    · rw [h]

theorem spreadNat_testBit_even (n k : Nat) : (spreadNat n).testBit (2 * k) = n.testBit k := by
  induction k generalizing n with
  | zero => rw [spreadNat_eq]; simp [Nat.testBit_zero]; omega
  | succ k ih =>
    rw [Nat.testBit_succ, ← ih, spreadNat_eq n]
    rw [show 2 * (k + 1) = (2 * k) + 1 + 1 by omega, Nat.testBit_succ, Nat.testBit_succ]
    congr 1
    omega

theorem spreadNat_testBit_odd (n k : Nat) : (spreadNat n).testBit (2 * k + 1) = false := by
  induction k generalizing n with
  | zero => rw [spreadNat_eq, Nat.testBit_succ]; simp [Nat.testBit_zero]; omega
  | succ k ih =>
    rw [spreadNat_eq n, show 2 * (k + 1) + 1 = (2 * k + 1) + 1 + 1 by omega, Nat.testBit_succ, Nat.testBit_succ,
      show (n % 2 + 4 * spreadNat (n / 2)) / 2 / 2 = spreadNat (n / 2) by omega, ih]

theorem spreadBits_getLsbD (x : BitVec 32) (hx : ∀ k, 16 ≤ k → x.getLsbD k = false) (i : Nat) (hi : i < 32) :
    (spreadBits x).getLsbD i = (decide (i % 2 = 0) && x.getLsbD (i / 2)) := by
  have hx' : ∀ k (h : k < 32), 16 ≤ k → x[k] = false := fun k h hk => by
    rw [← BitVec.getLsbD_eq_getElem]; exact hx k hk
  unfold spreadBits
  simp only [BitVec.getLsbD_and, BitVec.getLsbD_or, BitVec.getLsbD_shiftLeft]
  interval_cases i <;> simp [hx']

theorem spreadBits_toNat (n : Nat) (hn : n < 2 ^ 16) : (spreadBits (BitVec.ofNat 32 n)).toNat = spreadNat n := by
  have hx : ∀ k, 16 ≤ k → (BitVec.ofNat 32 n).getLsbD k = false := by
    intro k hk
    rw [BitVec.getLsbD_ofNat, Nat.testBit_lt_two_pow (Nat.lt_of_lt_of_le hn (Nat.pow_le_pow_right (by omega) hk))]
    simp
  apply Nat.eq_of_testBit_eq
  intro i
  have hs : n.testBit (i / 2) = false ∨ i < 32 := by
    by_cases h : i < 32
    · exact Or.inr h
    · left; exact Nat.testBit_lt_two_pow (Nat.lt_of_lt_of_le hn (Nat.pow_le_pow_right (by omega) (by omega)))
  by_cases hi : i < 32
  · rw [BitVec.testBit_toNat, spreadBits_getLsbD _ hx i hi, BitVec.getLsbD_ofNat]
    rcases Nat.mod_two_eq_zero_or_one i with h | h
    · rw [show i = 2 * (i / 2) by omega, spreadNat_testBit_even]
      simp; omega
    · rw [show i = 2 * (i / 2) + 1 by omega, spreadNat_testBit_odd]
      simp
  · rw [BitVec.testBit_toNat, BitVec.getLsbD_of_ge _ _ (by omega)]
    rcases Nat.mod_two_eq_zero_or_one i with h | h
    · rw [show i = 2 * (i / 2) by omega, spreadNat_testBit_even]
      symm; rcases hs with h | h
      · exact h
      · omega
    · rw [show i = 2 * (i / 2) + 1 by omega, spreadNat_testBit_odd]

theorem spreadNat_bound (n k : Nat) (h : n < 2 ^ k) : 3 * spreadNat n < 2 ^ (2 * k) := by
  induction k generalizing n with
  | zero => have : n = 0 := by simpa using h
            subst this; simp [spreadNat_zero]
  | succ k ih =>
    rw [spreadNat_eq]
    have h2 : 2 ^ (k + 1) = 2 * 2 ^ k := by rw [Nat.pow_succ]; omega
    have := ih (n / 2) (by omega)
    have h4 : 2 ^ (2 * (k + 1)) = 4 * 2 ^ (2 * k) := by
      rw [show 2 * (k + 1) = 2 * k + 1 + 1 by omega, Nat.pow_succ, Nat.pow_succ]; omega
    omega

theorem spread_disjoint (x y : BitVec 32) (hx : ∀ i, i % 2 = 1 → x.getLsbD i = false)
    (hy : ∀ i, i % 2 = 1 → y.getLsbD i = false) : x &&& (y <<< 1) = 0#32 := by
  apply BitVec.eq_of_getLsbD_eq
  intro i hi
  rw [BitVec.getLsbD_and, BitVec.getLsbD_shiftLeft]
  rcases Nat.mod_two_eq_zero_or_one i with h | h
  · rcases Nat.eq_zero_or_pos i with h0 | h0
    · subst h0; simp
    · simp [hy (i - 1) (by omega)]
  · simp [hx i h]

/-- The Morton code of 16-bit coordinates, as a number. -/
theorem bitInterleave_eq (M row col : Nat) (hr : row < 2 ^ 16) (hc : col < 2 ^ 16) :
    bitInterleave M row col = (spreadNat row + 2 * spreadNat col) % M := by
  unfold bitInterleave
  congr 1
  have odd : ∀ n, n < 2 ^ 16 → ∀ i, i % 2 = 1 → (spreadBits (BitVec.ofNat 32 n)).getLsbD i = false := by
    intro n hn i hi
    rw [← BitVec.testBit_toNat, spreadBits_toNat n hn, show i = 2 * (i / 2) + 1 by omega, spreadNat_testBit_odd]
  rw [← BitVec.add_eq_or_of_and_eq_zero _ _ (spread_disjoint _ _ (odd row hr) (odd col hc)),
    BitVec.toNat_add, BitVec.toNat_shiftLeft, spreadBits_toNat row hr, spreadBits_toNat col hc]
  have h1 := spreadNat_bound col 16 hc
  have h2 := spreadNat_bound row 16 hr
  have e : spreadNat col <<< 1 = 2 * spreadNat col := by rw [Nat.shiftLeft_eq]; omega
  norm_num at h1 h2
  rw [e, Nat.mod_eq_of_lt (a := 2 * spreadNat col) (by omega), Nat.mod_eq_of_lt (by omega)]

theorem bitInterleave_lt (row col : Nat) (hr : row < 2 ^ 16) (hc : col < 2 ^ 16) :
    spreadNat row + 2 * spreadNat col < 2 ^ 32 := by
  have h1 := spreadNat_bound col 16 hc
  have h2 := spreadNat_bound row 16 hr
  norm_num at h1 h2
  omega

theorem bitInterleave_eq' (M row col : Nat) (hM : 2 ^ 32 ≤ M) (hr : row < 2 ^ 16) (hc : col < 2 ^ 16) :
    bitInterleave M row col = spreadNat row + 2 * spreadNat col := by
  rw [bitInterleave_eq M row col hr hc, Nat.mod_eq_of_lt (Nat.lt_of_lt_of_le (bitInterleave_lt row col hr hc) hM)]

section
variable {ε T : Type} [NZ ε T]

theorem leOf_ltMorton (M : Nat) (a b : ε) : leOf (ltMorton M) a b =
    decide (bitInterleave M (NZ.toEnt a).row (NZ.toEnt a).col ≤
      bitInterleave M (NZ.toEnt b).row (NZ.toEnt b).col) := by
  rw [Bool.eq_iff_iff]
  simp [leOf, ltMorton]

theorem totalPre_morton (M : Nat) : TotalPre (leOf (ltMorton (ε := ε) M)) := by
  refine ⟨fun a b c => ?_, fun a b => ?_⟩ <;> simp only [leOf_ltMorton, Bool.or_eq_true,
    decide_eq_true_eq] <;> omega

theorem sortMorton_perm (M : Nat) (es : List ε) : (sortTripletsMorton M es).Perm es :=
  List.mergeSort_perm _ _

theorem ents_sortMorton (M : Nat) (es : List ε) :
    ents (sortTripletsMorton M es) = (ents es).mergeSort (leOf (ltMorton M)) := by
  unfold ents sortTripletsMorton pssSort
  exact List.map_mergeSort (fun a _ b _ => by rw [leOf_ltMorton, leOf_ltMorton]; rfl)

/-- For 16-bit coordinates Morton order within a row is column order. -/
theorem sortMorton_exact [Add T] [Mul T] (M : Nat) (hM : 2 ^ 32 ≤ M) (es : List ε)
    (h : ∀ e ∈ ents es, e.row < 2 ^ 16 ∧ e.col < 2 ^ 16) (x y : Nat → T) :
    spmvInOrder (ents (sortTripletsMorton M es)) x y = spmvExact (ents es) x y := by
  rw [ents_sortMorton]
  refine spmvInOrder_mergeSort (totalPre_morton M) _ (fun a ha b hb e => ?_) x y
  rw [leOf_ltMorton, decide_eq_decide]
  show bitInterleave M a.row a.col ≤ bitInterleave M b.row b.col ↔ _
  rw [bitInterleave_eq' M _ _ hM (h a ha).1 (h a ha).2, bitInterleave_eq' M _ _ hM (h b hb).1 (h b hb).2, e]
  rw [← spreadNat_le_iff (a := a.col)]
  omega
end

end Gsb
