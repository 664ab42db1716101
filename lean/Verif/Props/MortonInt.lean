import Verif.Props.BlockTest
/-
C25: the Morton sort when the indices are of type `int`.
-/
namespace Gsb
variable {ε T : Type} [NZ ε T]

theorem filter_append_of_sorted {α : Type} {le : α → α → Bool} (p : α → Bool)
    (l : List α) (h : l.Pairwise (fun a b => le a b = true)) (hp : ∀ a ∈ l, ∀ b ∈ l, le a b = true → p b = true → p a = true) :
    l = l.filter p ++ l.filter (fun a => !p a) := by
  induction l with
  | nil => rfl
  | cons a l ih =>
    obtain ⟨h1, h2⟩ := List.pairwise_cons.1 h
    have ih := ih h2 fun a ha b hb => hp a (List.mem_cons_of_mem _ ha) b (List.mem_cons_of_mem _ hb)
    by_cases hpa : p a = true
    · rw [List.filter_cons_of_pos hpa, List.filter_cons_of_neg (by simp [hpa]), List.cons_append, ← ih]
    · have hn : ∀ b ∈ l, ¬ p b = true := fun b hb hpb =>
        hpa (hp a List.mem_cons_self b (List.mem_cons_of_mem _ hb) (h1 b hb) hpb)
      rw [List.filter_cons_of_neg hpa, List.filter_cons_of_pos (by simp [hpa]), List.filter_eq_nil_iff.2 hn,
        List.filter_eq_self.2 (fun b hb => by simp [hn b hb])]
      rfl

/-- The sign bit of the code is the top bit of the column index. -/
theorem sign_bit (row col : Nat) (hr : row < 2 ^ 16) (hc : col < 2 ^ 16) :
    2 ^ 31 ≤ bitInterleave (2 ^ 32) row col ↔ 2 ^ 15 ≤ col := by
  have hlt : bitInterleave (2 ^ 32) row col < 2 ^ 32 := by
    rw [bitInterleave_eq' _ _ _ (Nat.le_refl _) hr hc]; exact bitInterleave_lt row col hr hc
  have hb := (C26_bits (2 ^ 32) row col (Nat.le_refl _) hr hc 15).2
  have top : ∀ n k : Nat, n < 2 ^ (k + 1) → (n.testBit k = true ↔ 2 ^ k ≤ n) := by
    intro n k hn
    rw [Nat.testBit_eq_decide_div_mod_eq, decide_eq_true_eq]
    constructor
    · intro h
      by_contra hlt
      rw [Nat.div_eq_of_lt (by omega)] at h
      simp at h
    · intro h
      have h1 : 0 < n / 2 ^ k := Nat.div_pos h (Nat.two_pow_pos k)
      have h2 : n / 2 ^ k < 2 := (Nat.div_lt_iff_lt_mul (Nat.two_pow_pos k)).2 (by rw [Nat.pow_succ] at hn; omega)
      omega
  rw [← top _ 31 hlt, ← top _ 15 hc, hb]

theorem totalPre_mortonInt : TotalPre (leOf (ltMortonInt (ε := ε))) := by
  have : leOf (ltMortonInt (ε := ε)) = fun a b => decide (toInt32 (bitInterleave (2 ^ 32) (NZ.toEnt a).row (NZ.toEnt a).col) ≤
      toInt32 (bitInterleave (2 ^ 32) (NZ.toEnt b).row (NZ.toEnt b).col)) := by
    funext a b
    simp only [leOf, ltMortonInt]
    rw [← decide_not, decide_eq_decide]
    exact not_lt
  rw [this]
  exact totalPre_of_key (fun a : ε => toInt32 (bitInterleave (2 ^ 32) (NZ.toEnt a).row (NZ.toEnt a).col))

/-- **C25** for `int` indices: the sort compares the codes as signed numbers, so the triplets with a column index of 2^15 and more come
before all others; within either part they are in Morton order. -/
theorem C25_morton_int (es : List ε) (hfit : ∀ e ∈ ents es, e.row < 2 ^ 16 ∧ e.col < 2 ^ 16) (A : Coo T) (es' : List ε)
    (h : cooToBlockCooInt es = .ok (A, es')) :
    es' = sortTripletsMorton (2 ^ 32) (es.filter fun e => decide (2 ^ 15 ≤ (NZ.toEnt e).col)) ++
      sortTripletsMorton (2 ^ 32) (es.filter fun e => decide ((NZ.toEnt e).col < 2 ^ 15)) := by
  have he : es' = pssSort ltMortonInt es := by
    unfold cooToBlockCooInt at h
    obtain ⟨_, -, h⟩ := bind_ok h
    obtain ⟨_, -, h⟩ := bind_ok h
    exact (congrArg Prod.snd (Except.ok.inj h)).symm
  have hf : ∀ e ∈ es, (NZ.toEnt e).row < 2 ^ 16 ∧ (NZ.toEnt e).col < 2 ^ 16 := fun e h => hfit _ (List.mem_map_of_mem h)
  have hlt : ∀ e ∈ es, bitInterleave (2 ^ 32) (NZ.toEnt e).row (NZ.toEnt e).col < 2 ^ 32 := fun e h => by
    rw [bitInterleave_eq' _ _ _ (Nat.le_refl _) (hf e h).1 (hf e h).2]; exact bitInterleave_lt _ _ (hf e h).1 (hf e h).2
  have hs : ∀ e ∈ es, (2 ^ 31 ≤ bitInterleave (2 ^ 32) (NZ.toEnt e).row (NZ.toEnt e).col ↔ 2 ^ 15 ≤ (NZ.toEnt e).col) := fun e h =>
    sign_bit _ _ (hf e h).1 (hf e h).2
  have hle : ∀ a b : ε, leOf ltMortonInt a b = true ↔ toInt32 (bitInterleave (2 ^ 32) (NZ.toEnt a).row (NZ.toEnt a).col) ≤
      toInt32 (bitInterleave (2 ^ 32) (NZ.toEnt b).row (NZ.toEnt b).col) := by
    intro a b
    simp only [leOf, ltMortonInt]
    rw [Bool.not_eq_true', decide_eq_false_iff_not]
    exact not_lt
  have hcode : ∀ e ∈ es, toInt32 (bitInterleave (2 ^ 32) (NZ.toEnt e).row (NZ.toEnt e).col) =
      (bitInterleave (2 ^ 32) (NZ.toEnt e).row (NZ.toEnt e).col : Int) - if 2 ^ 15 ≤ (NZ.toEnt e).col then 2 ^ 32 else 0 := by
    intro e h
    unfold toInt32
    rw [Nat.mod_eq_of_lt (hlt e h)]
    have := hs e h
    split <;> split <;> omega
  rw [he]
  have hmem : ∀ e, e ∈ pssSort ltMortonInt es → e ∈ es := fun e h => (List.mergeSort_perm _ _).mem_iff.1 h
  have hsort := isStableSort_mergeSort (totalPre_mortonInt (ε := ε)) es
  rw [filter_append_of_sorted (le := leOf ltMortonInt) (fun e => decide (2 ^ 15 ≤ (NZ.toEnt e).col)) (pssSort ltMortonInt es) hsort.sorted (by
    intro a ha b hb hab hpb
    have ha := hmem a ha
    have hb := hmem b hb
    rw [hle, hcode a ha, hcode b hb] at hab
    have h1 := hlt a ha
    have h2 := hlt b hb
    have h3 := hs a ha
    have h4 := hs b hb
    have hpb := of_decide_eq_true hpb
    refine decide_eq_true ?_
    rw [if_pos hpb] at hab
    by_contra hn
    rw [if_neg hn] at hab
    omega)]
  have hnot : (fun e : ε => !decide (2 ^ 15 ≤ (NZ.toEnt e).col)) = fun e => decide ((NZ.toEnt e).col < 2 ^ 15) := by
    funext e
    rw [← decide_not, decide_eq_decide]
    exact Nat.not_le
  rw [hnot]
  have part : ∀ p : ε → Bool, (∀ a ∈ es, ∀ b ∈ es, p a = true → p b = true → (2 ^ 15 ≤ (NZ.toEnt a).col ↔ 2 ^ 15 ≤ (NZ.toEnt b).col)) →
      (pssSort ltMortonInt es).filter p = sortTripletsMorton (2 ^ 32) (es.filter p) := by
    intro p hp
    unfold sortTripletsMorton pssSort
    rw [filter_mergeSort totalPre_mortonInt]
    refine mergeSort_congr fun a ha b hb => ?_
    obtain ⟨ha, hpa⟩ := List.mem_filter.1 ha
    obtain ⟨hb, hpb⟩ := List.mem_filter.1 hb
    have := hp a ha b hb hpa hpb
    rw [leOf_ltMorton, Bool.eq_iff_iff, hle, hcode a ha, hcode b hb, decide_eq_true_eq]
    by_cases hc : 2 ^ 15 ≤ (NZ.toEnt a).col
    · rw [if_pos hc, if_pos (this.1 hc)]; omega
    · rw [if_neg hc, if_neg (fun h => hc (this.2 h))]; omega
  rw [part _ (fun a _ b _ h1 h2 => iff_of_true (of_decide_eq_true h1) (of_decide_eq_true h2)),
    part _ (fun a _ b _ h1 h2 => iff_of_false (Nat.not_le.2 (of_decide_eq_true h1)) (Nat.not_le.2 (of_decide_eq_true h2)))]

/-- Hence the usual Morton order if no column index is 2^15 or more. -/
theorem C25_morton_int_small (es : List ε) (hfit : ∀ e ∈ ents es, e.row < 2 ^ 16 ∧ e.col < 2 ^ 15) (A : Coo T) (es' : List ε)
    (h : cooToBlockCooInt es = .ok (A, es')) : es' = sortTripletsMorton (2 ^ 32) es := by
  rw [C25_morton_int es (fun e he => ⟨(hfit e he).1, by have := (hfit e he).2; omega⟩) A es' h]
  have hf : ∀ e ∈ es, (NZ.toEnt e).col < 2 ^ 15 := fun e h => (hfit _ (List.mem_map_of_mem h)).2
  rw [List.filter_eq_nil_iff.2 (fun e he => by simpa using hf e he), List.filter_eq_self.2 (fun e he => by simpa using hf e he)]
  simp [sortTripletsMorton, pssSort]

end Gsb
