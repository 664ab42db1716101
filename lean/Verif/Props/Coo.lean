import Verif.Proof.Coo
/-
Properties C04 (COO formats), C25 (sorting helpers) and C26 (Morton code).
-/
namespace Gsb
variable {ε T : Type} [NZ ε T]

/-! ### C04 -/

/-- **C04**, `Coo2`/`Coo3`: an array of non-zeros multiplies in storage order.  No law of the
arithmetic is used. -/
theorem C04_coo_array_spmv [Add T] [Mul T] (rows columns : Nat) (es : List ε)
    (hin : InRange (ents es) rows columns) (x y : Nat → T) :
    spmvCooArray (Buf.ofList es) es.length (Buf.full columns x) 0 (Buf.full rows y) 0 =
      .ok (Buf.full rows (spmvInOrder (ents es) x y)) := by
  have := spmvCooArray_spec es (a := Buf.ofList es) rfl (fun _ => rfl) (nx := columns) (ny := rows)
    (xo := 0) (yo := 0) x y (fun e he => by have := (hin e he).2; omega)
    (fun e he => by have := (hin e he).1; omega)
  rwa [shift_zero] at this

/-- **C04**, `Coo_to_Coo` into `Coo2`/`Coo3`: the copy holds the same entries in the same order. -/
theorem C04_coo_copy (es : List ε) :
    ∃ b : Buf (Ent T), cooToCoo es = .ok b ∧ b.len = es.length ∧ b.toList es.length = .ok (ents es) := by
  refine ⟨⟨es.length, fun k => (es[k]?).map NZ.toEnt⟩, ?_, rfl, ?_⟩
  · unfold cooToCoo
    refine forLoop_closed' (fun i => (⟨es.length, fun k => ((es.take i)[k]?).map NZ.toEnt⟩ : Buf (Ent T)))
      (Nat.zero_le _) (by simp [Buf.uninit]) (by simp) ?_
    intro i _ hi
    have hlen : (es.take i).length = i := by simp; omega
    have htake : es.take (i + 1) = es.take i ++ [es[i]] := by
      rw [List.take_add_one]; simp [hi]
    rw [rd_ok hi, ok_bind, fill_put (es.take i) NZ.toEnt es[i] hlen hi, htake]
  · have : es.length = (ents es).length := by simp [ents]
    rw [this]
    exact toList_ofList (ents es) _ rfl (by intro i; simp [ents])

/-- **C04**, `Coo`, `BlockCoo`: the constructors succeed when the coordinates fit the small
index type of `S` values; they sort the input (`es'` is a permutation of it) and the product is
accumulated over `es'` in order, so in a commutative monoid it is `y + A x`. -/
theorem C04_coo_spmv [Add T] [Mul T] (M S rows columns : Nat) (es : List ε)
    (hin : InRange (ents es) rows columns) (hfit : ∀ e ∈ ents es, e.row < S ∧ e.col < S)
    (x y : Nat → T) :
    ∃ A es', mkCoo M S es = .ok (A, es') ∧ cooToBlockCoo M S es = .ok (A, es') ∧ es'.Perm es ∧
      A.nnz = es.length ∧
      A.spmv (Buf.full columns x) 0 (Buf.full rows y) 0 =
        .ok (Buf.full rows (spmvInOrder (ents es') x y)) := by
  obtain ⟨A, h1, h2, h3⟩ := mkCoo_spmv M S es hfit (nx := columns) (ny := rows) (xo := 0) (yo := 0) x y
    (fun e he => by have := (hin e he).2; omega) (fun e he => by have := (hin e he).1; omega)
  rw [shift_zero] at h3
  exact ⟨A, _, h1, by rw [cooToBlockCoo_spec M S es hfit]; exact h1, sortMorton_perm M es, h2, h3⟩

/-- **C04** in a commutative monoid: the product of `Coo`/`BlockCoo` is the mathematical one. -/
theorem C04_coo_sum [AddCommMonoid T] [Mul T] (M S rows columns : Nat) (es : List ε)
    (hin : InRange (ents es) rows columns) (hfit : ∀ e ∈ ents es, e.row < S ∧ e.col < S)
    (x y : Nat → T) :
    ∃ A es', cooToBlockCoo M S es = .ok (A, es') ∧
      A.spmv (Buf.full columns x) 0 (Buf.full rows y) 0 =
        .ok (Buf.full rows (spmvSum (ents es) x y)) := by
  obtain ⟨A, es', -, h1, hp, -, h2⟩ := C04_coo_spmv M S rows columns es hin hfit x y
  refine ⟨A, es', h1, ?_⟩
  rw [h2, spmvInOrder_eq_sum, spmvSum_perm (ents_perm hp)]

/-- **C04**, 16-bit coordinates and an index type of at least 32 bits: `Coo`/`BlockCoo` are
bit-identical to CSR — the result is `spmvExact`. -/
theorem C04_coo_exact16 [Add T] [Mul T] (M rows columns : Nat) (hM : 2 ^ 32 ≤ M) (es : List ε)
    (hin : InRange (ents es) rows columns) (hfit : ∀ e ∈ ents es, e.row < 2 ^ 16 ∧ e.col < 2 ^ 16)
    (x y : Nat → T) :
    ∃ A es', cooToBlockCoo M (2 ^ 16) es = .ok (A, es') ∧
      A.spmv (Buf.full columns x) 0 (Buf.full rows y) 0 =
        .ok (Buf.full rows (spmvExact (ents es) x y)) := by
  obtain ⟨A, es', h0, h1, hp, -, h2⟩ := C04_coo_spmv M (2 ^ 16) rows columns es hin hfit x y
  refine ⟨A, es', h1, ?_⟩
  have he : es' = sortTripletsMorton M es := by
    obtain ⟨A', h3, -⟩ := mkCoo_spmv M (2 ^ 16) es hfit (nx := columns) (ny := rows) (xo := 0) (yo := 0) x y
      (fun e he => by have := (hin e he).2; omega) (fun e he => by have := (hin e he).1; omega)
    rw [h0] at h3
    simp only [Except.ok.injEq, Prod.mk.injEq] at h3
    exact h3.2
  rw [h2, he, sortMorton_exact M hM es hfit]

/-- **C04**, `BlockCoo2`: the constructor succeeds, stores a permutation of the entries and the
product is accumulated over it in order. -/
theorem C04_blockcoo2_spmv [Add T] [Mul T] (M S rows columns : Nat) (es : List ε)
    (hin : InRange (ents es) rows columns) (hfit : ∀ e ∈ ents es, e.row < S ∧ e.col < S)
    (x y : Nat → T) :
    ∃ L : List (Ent T), cooToBlockCoo2 M S es = .ok L ∧ L.Perm (ents es) ∧
      spmvCooArray (Buf.ofList L) L.length (Buf.full columns x) 0 (Buf.full rows y) 0 =
        .ok (Buf.full rows (spmvInOrder L x y)) := by
  have hp := sortMorton_perm (T := T) S (ents es)
  refine ⟨sortTripletsMorton S (ents es), ?_, hp, ?_⟩
  · unfold cooToBlockCoo2
    have hc : (if S < M then
      forLoop 0 es.length () (fun i _ => do
        let e ← rd es i
        cassert (decide ((NZ.toEnt e).row < S) && decide ((NZ.toEnt e).col < S)))
      else .ok ()) = .ok () := by
      split
      · exact checkLoop_ok S es hfit
      · rfl
    rw [hc, ok_bind]
    rw [forLoop_closed' (t := ⟨es.length, fun k => (es[k]?).map
          (fun e => (⟨(NZ.toEnt e).row % S, (NZ.toEnt e).col % S, (NZ.toEnt e).val⟩ : Ent T))⟩)
        (fun i => (⟨es.length, fun k => ((es.take i)[k]?).map
          (fun e => (⟨(NZ.toEnt e).row % S, (NZ.toEnt e).col % S, (NZ.toEnt e).val⟩ : Ent T))⟩ : Buf (Ent T)))
      (Nat.zero_le _) (by simp [Buf.uninit]) (by simp), ok_bind]
    · have hl : es.length = (truncBoth S (ents es)).length := by simp [truncBoth, ents]
      rw [show (⟨es.length, fun k => (es[k]?).map (fun e =>
          (⟨(NZ.toEnt e).row % S, (NZ.toEnt e).col % S, (NZ.toEnt e).val⟩ : Ent T))⟩ : Buf (Ent T)).toList es.length
          = .ok (truncBoth S (ents es)) by
        rw [hl]
        exact toList_ofList _ _ rfl (by intro i; simp [truncBoth, ents, Function.comp_def]),
        ok_bind, truncBoth_eq hfit]
    · intro i _ hi
      have hlen : (es.take i).length = i := by simp; omega
      have htake : es.take (i + 1) = es.take i ++ [es[i]] := by
        rw [List.take_add_one]; simp [hi]
      rw [rd_ok hi, ok_bind, fill_put (es.take i)
        (fun e => (⟨(NZ.toEnt e).row % S, (NZ.toEnt e).col % S, (NZ.toEnt e).val⟩ : Ent T)) es[i] hlen hi, htake]
  · have hin' : InRange (ents (sortTripletsMorton S (ents es))) rows columns := by
      intro e he
      refine hin e (hp.mem_iff.1 ?_)
      simpa [ents, NZ.toEnt] using he
    have := C04_coo_array_spmv rows columns _ hin' x y
    simpa [ents, NZ.toEnt] using this

/-- **C04**, `BlockCoo2` in a commutative monoid. -/
theorem C04_blockcoo2_sum [AddCommMonoid T] [Mul T] (M S rows columns : Nat) (es : List ε)
    (hin : InRange (ents es) rows columns) (hfit : ∀ e ∈ ents es, e.row < S ∧ e.col < S)
    (x y : Nat → T) :
    ∃ L : List (Ent T), cooToBlockCoo2 M S es = .ok L ∧
      spmvCooArray (Buf.ofList L) L.length (Buf.full columns x) 0 (Buf.full rows y) 0 =
        .ok (Buf.full rows (spmvSum (ents es) x y)) := by
  obtain ⟨L, h1, hp, h2⟩ := C04_blockcoo2_spmv M S rows columns es hin hfit x y
  exact ⟨L, h1, by rw [h2, spmvInOrder_eq_sum, spmvSum_perm hp]⟩

/-- C04: coordinates that do not fit are caught by the block constructors' assertion. -/
theorem C04_blockcoo_rejects (M S : Nat) (hS : S < M) (es : List ε)
    (hbad : ∃ e ∈ ents es, ¬ (e.row < S ∧ e.col < S)) :
    (cooToBlockCoo M S es : C (Coo T × List ε)) = .error .assertion ∧
    (cooToBlockCoo2 M S es : C (List (Ent T))) = .error .assertion := by
  have key : ∀ n l, l = es.length - n → n ≤ es.length →
      (∃ (i : Nat) (h : i < es.length), n ≤ i ∧ ¬ ((NZ.toEnt es[i]).row < S ∧ (NZ.toEnt es[i]).col < S)) →
      loopN (fun i (_ : Unit) => do
        let e ← rd es i
        cassert (decide ((NZ.toEnt e).row < S) && decide ((NZ.toEnt e).col < S))) l n () = .error .assertion := by
    intro n l
    induction l generalizing n with
    | zero => rintro h1 h2 ⟨i, hi, h3, -⟩; omega
    | succ l ih =>
      rintro h1 h2 ⟨i, hi, h3, h4⟩
      have hn : n < es.length := by omega
      unfold loopN
      rw [rd_ok hn, ok_bind]
      by_cases hc : (NZ.toEnt es[n]).row < S ∧ (NZ.toEnt es[n]).col < S
      · simp only [hc, decide_true, Bool.and_self, cassert_true, ok_bind]
        refine ih (n + 1) (by omega) (by omega) ⟨i, hi, ?_, h4⟩
        rcases Nat.lt_or_ge n i with h | h
        · omega
        · have : i = n := by omega
          subst this; exact absurd hc h4
      · have : (decide ((NZ.toEnt es[n]).row < S) && decide ((NZ.toEnt es[n]).col < S)) = false := by
          rw [Bool.eq_false_iff]; simpa using hc
        rw [this]; rfl
  obtain ⟨e, he, hb⟩ := hbad
  obtain ⟨a, ha, rfl⟩ := List.mem_map.1 he
  obtain ⟨i, hi, rfl⟩ := List.getElem_of_mem ha
  have hk := key 0 es.length (by omega) (by omega) ⟨i, hi, Nat.zero_le _, hb⟩
  constructor
  · unfold cooToBlockCoo; simp only [hS, if_true]; unfold forLoop
    rw [Nat.sub_zero, hk]; rfl
  · unfold cooToBlockCoo2; simp only [hS, if_true]; unfold forLoop
    rw [Nat.sub_zero, hk]; rfl

/-- A 3×4 input with a duplicate meets the hypotheses of the C04 theorems. -/
example : InRange (ents [(⟨2, 1, 5⟩ : Ent Int), ⟨0, 3, 2⟩, ⟨0, 0, 7⟩, ⟨2, 1, -1⟩]) 3 4 ∧
    (∀ e ∈ ents [(⟨2, 1, 5⟩ : Ent Int), ⟨0, 3, 2⟩, ⟨0, 0, 7⟩, ⟨2, 1, -1⟩],
      e.row < 2 ^ 16 ∧ e.col < 2 ^ 16) ∧ 2 ^ 16 < 2 ^ 32 := by decide

/-- An entry that trips the check. -/
example : ∃ e ∈ ents [(⟨2, 70000, 5⟩ : Ent Int)], ¬ (e.row < 2 ^ 16 ∧ e.col < 2 ^ 16) := by decide

/-! ### C25 -/

/-- **C25**, row-major: a stable sort by (row, column). -/
theorem C25_row_major (es : List ε) :
    IsStableSort (fun a b : ε => decide ((NZ.toEnt a).row < (NZ.toEnt b).row ∨
      ((NZ.toEnt a).row = (NZ.toEnt b).row ∧ (NZ.toEnt a).col ≤ (NZ.toEnt b).col)))
      es (sortTriplets es true) := by
  have h := isStableSort_mergeSort (totalPre_rowMajor (ε := ε)) es
  have e : leOf (ltRowMajor (ε := ε)) = fun a b => decide ((NZ.toEnt a).row < (NZ.toEnt b).row ∨
      ((NZ.toEnt a).row = (NZ.toEnt b).row ∧ (NZ.toEnt a).col ≤ (NZ.toEnt b).col)) := by
    funext a b; exact leOf_ltRowMajor a b
  rw [e] at h
  show IsStableSort _ es (es.mergeSort (leOf ltRowMajor))
  rw [e]; exact h

/-- **C25**, column-major: a stable sort by (column, row). -/
theorem C25_col_major (es : List ε) :
    IsStableSort (fun a b : ε => decide ((NZ.toEnt a).col < (NZ.toEnt b).col ∨
      ((NZ.toEnt a).col = (NZ.toEnt b).col ∧ (NZ.toEnt a).row ≤ (NZ.toEnt b).row)))
      es (sortTriplets es false) := by
  have e : leOf (ltColMajor (ε := ε)) = fun a b => decide ((NZ.toEnt a).col < (NZ.toEnt b).col ∨
      ((NZ.toEnt a).col = (NZ.toEnt b).col ∧ (NZ.toEnt a).row ≤ (NZ.toEnt b).row)) := by
    funext a b
    rw [Bool.eq_iff_iff]
    simp only [leOf, ltColMajor, Bool.not_eq_true', Bool.or_eq_false_iff, Bool.and_eq_false_iff,
      decide_eq_false_iff_not, beq_eq_false_iff_ne, decide_eq_true_eq]
    omega
  show IsStableSort _ es (es.mergeSort (leOf ltColMajor))
  rw [e]
  refine isStableSort_mergeSort ⟨fun a b c => ?_, fun a b => ?_⟩ es <;>
    simp only [Bool.or_eq_true, decide_eq_true_eq] <;> omega

/-- **C25**, wide rows of `width > 0` rows: a stable sort by (row / width, column, row). -/
theorem C25_wide_rows (width : Nat) (es : List ε) :
    IsStableSort (fun a b : ε => decide ((NZ.toEnt a).row / width < (NZ.toEnt b).row / width ∨
      ((NZ.toEnt a).row / width = (NZ.toEnt b).row / width ∧ ((NZ.toEnt a).col < (NZ.toEnt b).col ∨
       ((NZ.toEnt a).col = (NZ.toEnt b).col ∧ (NZ.toEnt a).row ≤ (NZ.toEnt b).row)))))
      es (sortTripletsWide width es) := by
  have e : leOf (ltWide (ε := ε) width) = fun a b =>
      decide ((NZ.toEnt a).row / width < (NZ.toEnt b).row / width ∨
      ((NZ.toEnt a).row / width = (NZ.toEnt b).row / width ∧ ((NZ.toEnt a).col < (NZ.toEnt b).col ∨
       ((NZ.toEnt a).col = (NZ.toEnt b).col ∧ (NZ.toEnt a).row ≤ (NZ.toEnt b).row)))) := by
    funext a b
    rw [Bool.eq_iff_iff]
    simp only [leOf, ltWide, Bool.not_eq_true', Bool.or_eq_false_iff, Bool.and_eq_false_iff,
      decide_eq_false_iff_not, beq_eq_false_iff_ne, decide_eq_true_eq]
    omega
  show IsStableSort _ es (es.mergeSort (leOf (ltWide width)))
  rw [e]
  refine isStableSort_mergeSort ⟨fun a b c => ?_, fun a b => ?_⟩ es <;>
    simp only [Bool.or_eq_true, decide_eq_true_eq] <;> omega

/-- **C25**, Morton order: a stable sort by the interleaved key (see C26 for the key). -/
theorem C25_morton (M : Nat) (es : List ε) :
    IsStableSort (fun a b : ε => decide (bitInterleave M (NZ.toEnt a).row (NZ.toEnt a).col ≤
      bitInterleave M (NZ.toEnt b).row (NZ.toEnt b).col)) es (sortTripletsMorton M es) := by
  have e : leOf (ltMorton (ε := ε) M) = fun a b => decide (bitInterleave M (NZ.toEnt a).row (NZ.toEnt a).col ≤
      bitInterleave M (NZ.toEnt b).row (NZ.toEnt b).col) := by
    funext a b; exact leOf_ltMorton M a b
  have h := isStableSort_mergeSort (totalPre_morton (ε := ε) M) es
  rw [e] at h
  show IsStableSort _ es (es.mergeSort (leOf (ltMorton M)))
  rw [e]; exact h

/-- The specification determines the answer: two stable sorts by the same order are equal
(so C25 pins every helper's output completely). -/
theorem C25_unique {α : Type} {le : α → α → Bool} (h : TotalPre le) {l l₁ l₂ : List α}
    (h₁ : IsStableSort le l l₁) (h₂ : IsStableSort le l l₂) : l₁ = l₂ := isStableSort_unique h h₁ h₂

/-- A concrete unsorted array with ties: sorted by row, the two equal coordinates in input order. -/
example : sortTriplets [(⟨2, 1, 5⟩ : Ent Int), ⟨0, 3, 2⟩, ⟨2, 1, -1⟩] true =
    [⟨0, 3, 2⟩, ⟨2, 1, 5⟩, ⟨2, 1, -1⟩] := by
  simp [sortTriplets, pssSort, List.mergeSort, leOf, ltRowMajor, NZ.toEnt]

/-! ### C26 -/

/-- **C26.** For 16-bit coordinates, bit `2k` of the code is row's bit `k` and bit `2k+1` is
column's bit `k`, for every `k`. -/
theorem C26_bits (M row col : Nat) (hM : 2 ^ 32 ≤ M) (hr : row < 2 ^ 16) (hc : col < 2 ^ 16) (k : Nat) :
    (bitInterleave M row col).testBit (2 * k) = row.testBit k ∧
    (bitInterleave M row col).testBit (2 * k + 1) = col.testBit k := by
  rw [bitInterleave_eq' M row col hM hr hc]
  clear hr hc hM
  induction k generalizing row col with
  | zero =>
    rw [spreadNat_eq row, spreadNat_eq col]
    simp only [Nat.mul_zero, Nat.zero_add, Nat.testBit_zero]
    constructor
    · rw [decide_eq_decide]; omega
    · rw [Nat.testBit_succ, Nat.testBit_zero, decide_eq_decide]; omega
  | succ k ih =>
    have h := ih (row / 2) (col / 2)
    have e : (spreadNat row + 2 * spreadNat col) / 2 / 2 = spreadNat (row / 2) + 2 * spreadNat (col / 2) := by
      rw [spreadNat_eq row, spreadNat_eq col]; omega
    constructor
    · rw [show 2 * (k + 1) = (2 * k + 1) + 1 by omega, Nat.testBit_succ, Nat.testBit_succ,
        Nat.testBit_succ row, e]
      exact h.1
    · rw [show 2 * (k + 1) + 1 = (2 * k + 1) + 1 + 1 by omega, Nat.testBit_succ (_ + _) (2 * k + 1 + 1),
        Nat.testBit_succ _ (2 * k + 1), Nat.testBit_succ col, e]
      exact h.2

/-- **C26** when the result is cast to a narrower index type with `2^(2w)` values (`w = 8` for the 16-bit small indices by which
BlockCoo2 sorts its entries): only the low `w` bits of each coordinate are kept. -/
theorem C26_narrow (w row col : Nat) (hw : w ≤ 16) (hr : row < 2 ^ 16) (hc : col < 2 ^ 16) (k : Nat) :
    (bitInterleave (2 ^ (2 * w)) row col).testBit (2 * k) = (decide (k < w) && row.testBit k) ∧
    (bitInterleave (2 ^ (2 * w)) row col).testBit (2 * k + 1) = (decide (k < w) && col.testBit k) := by
  have e : bitInterleave (2 ^ (2 * w)) row col = bitInterleave (2 ^ 32) row col % 2 ^ (2 * w) := by
    unfold bitInterleave
    rw [Nat.mod_mod_of_dvd _ (pow_dvd_pow 2 (by omega))]
  obtain ⟨h1, h2⟩ := C26_bits (2 ^ 32) row col (Nat.le_refl _) hr hc k
  rw [e, Nat.testBit_mod_two_pow, Nat.testBit_mod_two_pow, h1, h2]
  constructor
  · congr 1; rw [decide_eq_decide]; omega
  · congr 1; rw [decide_eq_decide]; omega
/-- **C26**, injectivity on 16-bit coordinates. -/
theorem C26_injective (M r c r' c' : Nat) (hM : 2 ^ 32 ≤ M) (hr : r < 2 ^ 16) (hc : c < 2 ^ 16)
    (hr' : r' < 2 ^ 16) (hc' : c' < 2 ^ 16) (h : bitInterleave M r c = bitInterleave M r' c') :
    r = r' ∧ c = c' := by
  constructor <;> apply Nat.eq_of_testBit_eq <;> intro k
  · rw [← (C26_bits M r c hM hr hc k).1, ← (C26_bits M r' c' hM hr' hc' k).1, h]
  · rw [← (C26_bits M r c hM hr hc k).2, ← (C26_bits M r' c' hM hr' hc' k).2, h]

/-- **C26**, monotone in each coordinate. -/
theorem C26_monotone (M r c r' c' : Nat) (hM : 2 ^ 32 ≤ M) (hr : r < 2 ^ 16) (hc : c < 2 ^ 16)
    (hr' : r' < 2 ^ 16) (hc' : c' < 2 ^ 16) :
    (c < c' → bitInterleave M r c < bitInterleave M r c') ∧
    (r < r' → bitInterleave M r c < bitInterleave M r' c) := by
  rw [bitInterleave_eq' M r c hM hr hc, bitInterleave_eq' M r c' hM hr hc', bitInterleave_eq' M r' c hM hr' hc]
  exact ⟨fun h => by have := spreadNat_lt h; omega, fun h => by have := spreadNat_lt h; omega⟩

/-- **C26**, beyond 16 bits: rows 2^16 and 2^8 share a code with every column, so large
coordinates collide. -/
theorem C26_not_injective (M col : Nat) :
    bitInterleave M (2 ^ 16) col = bitInterleave M (2 ^ 8) col := by
  unfold bitInterleave
  have : spreadBits (BitVec.ofNat 32 (2 ^ 16)) = spreadBits (BitVec.ofNat 32 (2 ^ 8)) := by decide
  rw [this]

example : (5 : Nat) < 2 ^ 16 ∧ (3 : Nat) < 2 ^ 16 ∧ bitInterleave (2 ^ 32) 5 3 = 27 := by decide

end Gsb
