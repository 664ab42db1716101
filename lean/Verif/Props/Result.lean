import Verif.Proof.Result
import Verif.Spec.Result
import Verif.Props.Drivers
import Mathlib.Tactic.Ring
/-
C69 (check_results and the statistics of test/utils.h), C70 (result.cpp).
-/
namespace Gsb
variable {T τ : Type}

/-! ### C69 -/

section
variable [Add T] [Mul T] [Zero T]

/-- A report says where the vectors `f` and `g` differ, and its return code is 0 or -1 accordingly. -/
def Report.Says (fl : Arith T) (f g : Nat → T) (size : Nat) (r : Report T) : Prop :=
  Differences fl.ne f g size r.wrong (r.code = 0) ∧ (r.code = 0 ∨ r.code = -1)

/-- **C69.** `check_results` on two arrays of at least `size` elements counts the places where they differ and returns 0 if there are
none, -1 otherwise. -/
theorem C69_check (M : Nat) (fl : Arith T) (f g : Nat → T) (n1 n2 size : Nat) (h1 : size ≤ n1) (h2 : size ≤ n2) (hM : size < M) :
    ∃ r, checkResults M fl (Buf.full n1 f) (Buf.full n2 g) size = .ok r ∧ r.Says fl f g size := by
  refine ⟨_, checkResults_ok M fl f g n1 n2 size h1 h2 hM, ⟨?_, ?_⟩, ?_⟩
  · exact checkState_count fl f g size
  · simp only [checkState_wrong]
    constructor
    · intro h i hi
      by_contra hne
      have hm : i ∈ (List.range size).filter (fun i => fl.ne (f i) (g i)) := by
        rw [List.mem_filter, List.mem_range]
        exact ⟨hi, by simpa using hne⟩
      have := List.length_pos_of_mem hm
      rw [if_pos this] at h
      exact absurd h (by decide)
    · intro h
      have : (List.range size).filter (fun i => fl.ne (f i) (g i)) = [] := by
        rw [List.filter_eq_nil_iff]
        intro i hi
        rw [h i (List.mem_range.1 hi)]
        decide
      rw [this]; rfl
  · simp only
    split
    · exact .inr rfl
    · exact .inl rfl

/-- **C69**, not-a-number: a place where both arrays hold a value that differs from itself is reported as a difference. -/
theorem C69_nan (M : Nat) (fl : Arith T) (f g : Nat → T) (n1 n2 size i : Nat) (h1 : size ≤ n1) (h2 : size ≤ n2) (hM : size < M)
    (hi : i < size) (hsame : f i = g i) (hnan : fl.ne (f i) (f i) = true) :
    ∃ r, checkResults M fl (Buf.full n1 f) (Buf.full n2 g) size = .ok r ∧ r.code = -1 ∧ 1 ≤ r.wrong := by
  obtain ⟨r, e1, e2, e3⟩ := C69_check M fl f g n1 n2 size h1 h2 hM
  have hne : fl.ne (f i) (g i) = true := by rw [← hsame]; exact hnan
  refine ⟨r, e1, ?_, ?_⟩
  · rcases e3 with h | h
    · rw [e2.same.1 h i hi] at hne; cases hne
    · exact h
  · rw [e2.count]
    exact Finset.card_pos.2 ⟨i, by simp [hi, hne]⟩

/-- **C69**, short arrays: if either array has fewer than `size` elements, the comparison reads outside it. -/
theorem C69_short (M : Nat) (fl : Arith T) (f g : Nat → T) (n1 n2 size : Nat) (h : n1 < size ∨ n2 < size) (hM : size < M) :
    checkResults M fl (Buf.full n1 f) (Buf.full n2 g) size = .error .oob := by
  have hstop : checkStep M fl (Buf.full n1 f) (Buf.full n2 g) (min n1 n2) (checkState fl f g (min n1 n2)) = .error .oob := by
    unfold checkStep
    by_cases h1 : n1 ≤ n2
    · have : (Buf.full n1 f).get (min n1 n2) = .error .oob := by
        simp [Buf.get, Buf.full, Nat.min_eq_left h1]
      rw [this]; rfl
    · rw [Buf.get_full (by omega), ok_bind]
      have : (Buf.full n2 g).get (min n1 n2) = .error .oob := by
        simp [Buf.get, Buf.full]; omega
      rw [this]; rfl
  unfold checkResults
  rw [forLoop_split (mid := min n1 n2) (Nat.zero_le _) (by omega),
    forLoop_closed' (s := (0, 0, 0, 0)) (fun k => checkState fl f g k) (Nat.zero_le _) rfl rfl 
      (fun i _ hi => checkStep_ok M fl f g n1 n2 i (by omega) (by omega) (by omega)), ok_bind, forLoop_step (by omega), hstop]
  rfl

end

section
variable {K : Type} [Field K] [LinearOrder K] [IsStrictOrderedRing K]

/-- The arithmetic of an ordered field. -/
def exactArith (sqrt : K → K) : Arith K :=
  ⟨fun a b => decide (a ≠ b), fun a b => decide (b < a), fun a b => a - b, fun a b => a / b, fun n => (n : K), fun a => |a|, sqrt⟩

/-- **C69**, exact arithmetic: what `check_results` prints is the mean squared error, the same divided by the squared norm of the first
vector, and the greatest absolute difference. -/
theorem C69_errors (M : Nat) (sqrt : K → K) (f g : Nat → K) (n1 n2 size : Nat) (h1 : size ≤ n1) (h2 : size ≤ n2) (hM : size < M) :
    ∃ r, checkResults M (exactArith sqrt) (Buf.full n1 f) (Buf.full n2 g) size = .ok r ∧ Errors f g size r.mse r.nmse r.maxDiff ∧
      (r.code = 0 ↔ ∀ i < size, f i = g i) := by
  have key : ∀ k, (checkState (exactArith sqrt) f g k).2.1 = ∑ i ∈ Finset.range k, (f i - g i) ^ 2 ∧
      (checkState (exactArith sqrt) f g k).2.2.2 = ∑ i ∈ Finset.range k, f i ^ 2 ∧
      (∀ i < k, |f i - g i| ≤ (checkState (exactArith sqrt) f g k).2.2.1) ∧ 0 ≤ (checkState (exactArith sqrt) f g k).2.2.1 ∧
      ((checkState (exactArith sqrt) f g k).2.2.1 = 0 ∨ ∃ i < k, (checkState (exactArith sqrt) f g k).2.2.1 = |f i - g i|) := by
    intro k
    induction k with
    | zero => exact ⟨by simp [checkState], by simp [checkState], by simp, le_refl _, .inl rfl⟩
    | succ k ih =>
      obtain ⟨i1, i2, i3, i4, i5⟩ := ih
      rw [Finset.sum_range_succ, Finset.sum_range_succ, ← i1, ← i2, checkState_succ]
      generalize checkState (exactArith sqrt) f g k = s at *
      by_cases h : f k = g k
      · have hz : (exactArith sqrt).ne (f k) (g k) = false := by simp [exactArith, h]
        simp only [hz, Bool.false_eq_true, if_false]
        refine ⟨by rw [h]; ring, by ring, fun i hi => ?_, i4, ?_⟩
        · rcases Nat.lt_succ_iff_lt_or_eq.1 hi with h' | rfl
          · exact i3 i h'
          · rw [h, sub_self, abs_zero]; exact i4
        · rcases i5 with h' | ⟨i, hi, e⟩
          · exact .inl h'
          · exact .inr ⟨i, by omega, e⟩
      · have hz : (exactArith sqrt).ne (f k) (g k) = true := by simp [exactArith, h]
        simp only [hz, if_true]
        refine ⟨by show _ + (f k - g k) * (f k - g k) = _; ring, by ring, fun i hi => ?_, ?_, ?_⟩
        · show _ ≤ if decide (s.2.2.1 < |f k - g k|) = true then |f k - g k| else s.2.2.1
          rcases Nat.lt_succ_iff_lt_or_eq.1 hi with h' | rfl
          · have := i3 i h'
            split
            · next h2 => exact le_trans this (le_of_lt (by simpa using h2))
            · exact this
          · split
            · exact le_refl _
            · next h2 => simpa using h2
        · show _ ≤ if decide (s.2.2.1 < |f k - g k|) = true then |f k - g k| else s.2.2.1
          split
          · exact abs_nonneg _
          · exact i4
        · show (if decide (s.2.2.1 < |f k - g k|) = true then |f k - g k| else s.2.2.1) = 0 ∨
            ∃ i < k + 1, (if decide (s.2.2.1 < |f k - g k|) = true then |f k - g k| else s.2.2.1) = |f i - g i|
          split
          · exact .inr ⟨k, by omega, rfl⟩
          · rcases i5 with h' | ⟨i, hi, e⟩
            · exact .inl h'
            · exact .inr ⟨i, by omega, e⟩
  obtain ⟨k1, k2, k3, k4, k5⟩ := key size
  obtain ⟨r, e1, e2, -⟩ := C69_check M (exactArith sqrt) f g n1 n2 size h1 h2 hM
  have e1' := checkResults_ok M (exactArith sqrt) f g n1 n2 size h1 h2 hM
  refine ⟨r, e1, ?_, e2.same.trans ?_⟩
  · rw [e1] at e1'
    cases e1'
    refine ⟨?_, ?_, k3, k5⟩
    · show (checkState _ f g size).2.1 / (size : K) = _
      rw [k1]
    · show (checkState _ f g size).2.1 / (size : K) / (checkState _ f g size).2.2.2 = (checkState _ f g size).2.1 / (size : K) / _
      rw [k2]
  · simp [exactArith]

/-- **C69**, the statistics: `mean` is the mean and `standard_deviation` the square root of the mean squared distance to it. -/
theorem C69_mean (sqrt : K → K) (f : Nat → K) (n len : Nat) (h : n ≤ len) :
    mean (exactArith sqrt) (Buf.full len f) n = .ok ((∑ i ∈ Finset.range n, f i) / n) ∧
    standardDeviation (exactArith sqrt) (Buf.full len f) n =
      .ok (sqrt ((∑ i ∈ Finset.range n, (f i - (∑ i ∈ Finset.range n, f i) / n) ^ 2) / n)) := by
  have hm : mean (exactArith sqrt) (Buf.full len f) n = .ok ((∑ i ∈ Finset.range n, f i) / n) := by
    unfold mean
    rw [forLoop_closed' (s := (0 : K)) (fun k => ∑ i ∈ Finset.range k, f i) (Nat.zero_le _) (by simp) rfl (fun i _ hi => by
      rw [Buf.get_full (by omega), ok_bind, Finset.sum_range_succ]), ok_bind]
    rfl
  refine ⟨hm, ?_⟩
  unfold standardDeviation
  rw [hm, ok_bind, forLoop_closed' (s := (0 : K)) (fun k => ∑ j ∈ Finset.range k, (f j - (∑ i ∈ Finset.range n, f i) / n) ^ 2)
    (Nat.zero_le _) (by simp) rfl (fun i _ hi => by
      rw [Buf.get_full (by omega), ok_bind, Finset.sum_range_succ, pow_two]; rfl), ok_bind]
  rfl

/-- **C69**, the median: it is right for one or more elements, which it leaves sorted; on none it reads outside the array. -/
theorem C69_median (M : Nat) (sqrt : K → K) (data : List K) (hM : data.length < M) :
    (data ≠ [] → ∃ m sorted, median M (exactArith sqrt) data data.length = .ok (m, sorted) ∧ IsMedian data m ∧ sorted.Perm data ∧
      sorted.Pairwise (· ≤ ·)) ∧ median M (exactArith sqrt) ([] : List K) 0 = .error .oob := by
  constructor
  · intro hne
    have hpos := List.length_pos_iff.2 hne
    have hperm : (data.mergeSort (fun a b => decide (a ≤ b))).Perm data := List.mergeSort_perm _ _
    have hsort : (data.mergeSort (fun a b => decide (a ≤ b))).Pairwise (· ≤ ·) := by
      have := List.pairwise_mergeSort (le := fun a b : K => decide (a ≤ b))
        (fun a b c h1 h2 => by simp only [decide_eq_true_eq] at *; exact le_trans h1 h2)
        (fun a b => by simpa using le_total a b) data
      exact this.imp (by simp)
    unfold median
    rw [if_neg (by omega), List.take_length, List.drop_length, List.append_nil]
    generalize data.mergeSort (fun a b => decide (a ≤ b)) = s at *
    have hl := hperm.length_eq
    have hrank : ∀ k (h : k < s.length), HasRank data k s[k] := fun k h =>
      ⟨hperm.mem_iff.1 (List.getElem_mem h), by rw [← hperm.countP_eq]; exact (countP_lt_sorted hsort h).1,
        by rw [← hperm.countP_eq]; exact (countP_lt_sorted hsort h).2⟩
    simp only
    by_cases hodd : data.length % 2 ≠ 0
    · rw [if_pos hodd, rd_ok (by omega : data.length / 2 < s.length), ok_bind]
      refine ⟨_, s, rfl, ⟨s[data.length / 2], s[data.length / 2], ?_, hrank _ _, ?_⟩, hperm, hsort⟩
      · have e : (data.length - 1) / 2 = data.length / 2 := by omega
        rw [e]; exact hrank _ _
      · rw [← two_mul, mul_div_cancel_left₀ _ (two_ne_zero)]
    · rw [if_neg hodd, subM_eq (by omega) (by omega), rd_ok (by omega : data.length / 2 - 1 < s.length), ok_bind,
        rd_ok (by omega : data.length / 2 < s.length), ok_bind]
      refine ⟨_, s, rfl, ⟨s[data.length / 2 - 1], s[data.length / 2], ?_, hrank _ _, ?_⟩, hperm, hsort⟩
      · have e : (data.length - 1) / 2 = data.length / 2 - 1 := by omega
        rw [e]; exact hrank _ _
      · show (s[data.length / 2 - 1] + s[data.length / 2]) / ((2 : Nat) : K) = _
        norm_num
  · simp [median, rd]

end

/-! ### C70 -/

section
variable (env : ResultEnv T) (m : Machine T τ) (cv : Codec T) (conv : Bytes → T) (fuel : Nat) (fs : FS) (name : String)
  (rest : List String) (rows columns beta : Nat) (es : List (Ent T))

theorem reportOf_says [Add T] [Mul T] [Zero T] (fl : Arith T) (f g : Nat → T) (size : Nat) (h : size < 2 ^ 32) :
    (reportOf fl f g size).Says fl f g size := by
  obtain ⟨r, e1, e2⟩ := C69_check (2 ^ 32) fl f g size size size (Nat.le_refl _) (Nat.le_refl _) h
  rw [checkResults_ok _ _ _ _ _ _ _ (Nat.le_refl _) (Nat.le_refl _) h] at e1
  cases e1
  exact e2

/-- **C70**, bit for bit, whatever the arithmetic: if the program comes to its end, it does so with status 0 whatever the comparisons
say, and the first four of them (CSR(2), CSWR, CSBR, CSBR(2)) compare with `A x` added to what `y1` held — uninitialised memory — the
vector `A x` added to what `y2` held, which is uninitialised memory too in the first and zero in the others; both with the products of
each row added by increasing column. -/
theorem C70_exact [Add T] [Mul T] [Zero T] (hv : cv.Exact (fun _ => True)) (hfuel : 0 < fuel) (hw : 0 < m.workers)
    (hpick : pickBlockSize 32 m.logbeta rows columns m.valSize m.workers = .ok beta) (hb : beta ≠ 0) (hne : es ≠ [])
    (hgrid : max 1 (rows / min beta (min rows columns)) * max 1 (columns / min beta (min rows columns)) < 2 ^ 32)
    (hr : rows + 32 < 2 ^ 32) (hc : columns + 1 < 2 ^ 32) (hn : es.length < 2 ^ 32) (hin : InRange es rows columns)
    (hf : FileHolds cv conv fs name rows columns es) (status : Nat) (rs : List (Report T))
    (hrun : resultMain env m cv conv fuel fs (name :: rest) = .ok (status, rs)) :
    status = 0 ∧ rs.length = 7 ∧ ∃ r1 r2 r3 r4 more, rs = r1 :: r2 :: r3 :: r4 :: more ∧
      r1.Says env.fl (spmvExact es env.x env.y1) (spmvExact es env.x env.y2) rows ∧
      ∀ r ∈ [r2, r3, r4], r.Says env.fl (spmvExact es env.x env.y1) (spmvExact es env.x (fun _ => 0)) rows := by
  obtain ⟨es', -, h⟩ := resultMain_eq env m cv hv conv fuel hfuel fs name rest rows columns beta es hw hpick hb hne hgrid hr hc hn hin hf
  rw [h] at hrun
  unfold resultTail at hrun
  simp only [bind_ok_iff] at hrun
  obtain ⟨a6, -, r5, -, a7, -, r6, -, a8, -, r7, -, h7⟩ := hrun
  cases h7
  refine ⟨rfl, rfl, _, _, _, _, _, rfl, reportOf_says _ _ _ _ (by omega), fun r hr' => ?_⟩
  simp only [List.mem_cons, List.not_mem_nil, or_false, or_self] at hr'
  rw [hr']
  exact reportOf_says _ _ _ _ (by omega)

/-- **C70.** In a commutative semiring the program runs to its end, with status 0, and all seven comparisons (CSR(2), CSWR, CSBR,
CSBR(2), CGBR with 32-bit and 16-bit local indices, CGBR(2)) are between `A x` added to the initial content of `y1` and `A x` added to
that of `y2`, as above; blocks of dense type must not meet a repeated entry. -/
theorem C70_result [CommSemiring T] (hv : cv.Exact (fun _ => True)) (hfuel : 0 < fuel) (hval : m.valSize ≤ 8) (hw : 0 < m.workers)
    (hw2 : 8 * m.workers < 2 ^ 31)
    (hdup : ((∀ a b n, m.choose a b n ≠ .dense) ∧ (∀ a b n, m.factory a b n ≠ .dense) ∧ ∀ a b n, env.choose32 a b n ≠ .dense) ∨ Distinct es)
    (hpick : pickBlockSize 32 m.logbeta rows columns m.valSize m.workers = .ok beta) (hb : beta ≠ 0) (hne : es ≠ [])
    (hgrid : max 1 (rows / min beta (min rows columns)) * max 1 (columns / min beta (min rows columns)) < 2 ^ 32)
    (hr : rows + 32 < 2 ^ 32) (hc : columns + 1 < 2 ^ 32) (hn : 2 * (es.length + 2) ≤ 2 ^ 32) (hin : InRange es rows columns)
    (hf : FileHolds cv conv fs name rows columns es) :
    ∃ r1 more, resultMain env m cv conv fuel fs (name :: rest) = .ok (0, r1 :: more) ∧ more.length = 6 ∧
      r1.Says env.fl (spmvSum es env.x env.y1) (spmvSum es env.x env.y2) rows ∧
      ∀ r ∈ more, r.Says env.fl (spmvSum es env.x env.y1) (spmvSum es env.x (fun _ => 0)) rows := by
  obtain ⟨s, hs, h⟩ := resultMain_eq env m cv hv conv fuel hfuel fs name rest rows columns beta es hw hpick hb hne hgrid hr hc (by omega)
    hin hf
  have hle := pick_le (by omega) (by omega) hval hw2 hpick
  obtain ⟨e0, he0⟩ := List.exists_mem_of_ne_nil es hne
  have h00 := hin _ he0
  have hB0 : min beta (min rows columns) ≠ 0 := by omega
  have hBle : min beta (min rows columns) ≤ 2 ^ 15 := by omega
  generalize min beta (min rows columns) = B at *
  have hl : s.length = es.length := by have := hs.perm.length_eq; unfold ents at this; rw [List.length_map] at this; exact this
  have hsne : s ≠ [] := by rw [← List.length_pos_iff, hl]; exact List.length_pos_iff.2 hne
  have hd : Distinct es → Distinct (ents s) := distinct_perm hs.perm.symm
  have hsum : spmvSum (ents s) = spmvSum es := by funext x y; exact spmvSum_perm hs.perm x y
  obtain ⟨A6, s6, a6, m6⟩ := matRight_cgbrB (2 ^ 32) (by norm_num) env.choose32 env.heavy32 s rows columns B m.workers
    (hdup.imp (fun h => h.2.2) hd) hw hBle hB0 hsne (by omega) hgrid (by omega) hc (hs.inRange hin)
  obtain ⟨A7, s7, a7, m7⟩ := matRight_cgbrB (2 ^ 16) (by norm_num) m.choose m.heavy s rows columns B m.workers
    (hdup.imp (fun h => h.1) hd) hw hBle hB0 hsne (by omega) hgrid (by omega) hc (hs.inRange hin)
  obtain ⟨A8, s8, a8, m8⟩ := matRight_cgbr2B m.factory m.balanced s rows columns B m.workers
    (hdup.imp (fun h => h.2.1) hd) hw hBle hB0 hsne (by omega) hgrid (by omega) hc (hs.inRange hin)
  rw [hsum] at m6 m7 m8
  unfold resultTail at h
  rw [a6, ok_bind, resultSection_report env _ rows columns _ _ m6 _ _ _ (by omega), ok_bind, a7, ok_bind,
    resultSection_report env _ rows columns _ _ m7 _ _ _ (by omega), ok_bind, a8, ok_bind,
    resultSection_report env _ rows columns _ _ m8 _ _ _ (by omega), ok_bind] at h
  have hex : spmvExact es = spmvSum es := by funext x y; exact spmvExact_eq_sum es x y
  rw [hex] at h
  simp only [List.cons_append, List.nil_append] at h
  refine ⟨_, _, h, rfl, reportOf_says _ _ _ _ (by omega), fun r hr' => ?_⟩
  simp only [List.mem_cons, List.not_mem_nil, or_false, or_self] at hr'
  rw [hr']
  exact reportOf_says _ _ _ _ (by omega)

/-- **C70**, what this means: if fresh memory happens to be zero and every value equals itself, all seven comparisons report the same
result; if some row's value after adding to the memory of `y1` differs from the value itself, the last six report a difference although
all formats are right.  The status is 0 either way. -/
theorem C70_fresh_memory [CommSemiring T] (hv : cv.Exact (fun _ => True)) (hfuel : 0 < fuel) (hval : m.valSize ≤ 8) (hw : 0 < m.workers)
    (hw2 : 8 * m.workers < 2 ^ 31)
    (hdup : ((∀ a b n, m.choose a b n ≠ .dense) ∧ (∀ a b n, m.factory a b n ≠ .dense) ∧ ∀ a b n, env.choose32 a b n ≠ .dense) ∨ Distinct es)
    (hpick : pickBlockSize 32 m.logbeta rows columns m.valSize m.workers = .ok beta) (hb : beta ≠ 0) (hne : es ≠ [])
    (hgrid : max 1 (rows / min beta (min rows columns)) * max 1 (columns / min beta (min rows columns)) < 2 ^ 32)
    (hr : rows + 32 < 2 ^ 32) (hc : columns + 1 < 2 ^ 32) (hn : 2 * (es.length + 2) ≤ 2 ^ 32) (hin : InRange es rows columns)
    (hf : FileHolds cv conv fs name rows columns es) :
    ∃ rs, resultMain env m cv conv fuel fs (name :: rest) = .ok (0, rs) ∧ rs.length = 7 ∧
      ((∀ v, env.fl.ne v v = false) → (∀ i < rows, env.y1 i = 0 ∧ env.y2 i = 0) → ∀ r ∈ rs, r.code = 0 ∧ r.wrong = 0) ∧
      ((∃ i < rows, env.fl.ne (spmvSum es env.x env.y1 i) (spmvSum es env.x (fun _ => 0) i) = true) →
        ∀ r ∈ rs.tail, r.code = -1 ∧ r.wrong ≠ 0) := by
  obtain ⟨r1, more, h, hlen, h1, h2⟩ := C70_result env m cv conv fuel fs name rest rows columns beta es hv hfuel hval hw hw2 hdup hpick hb
    hne hgrid hr hc hn hin hf
  refine ⟨_, h, by rw [List.length_cons, hlen], fun hrefl hz r hr' => ?_, fun ⟨i, hi, hd⟩ r hr' => ?_⟩
  · have key : ∀ (r : Report T) (y : Nat → T), (∀ i < rows, y i = 0) →
        r.Says env.fl (spmvSum es env.x env.y1) (spmvSum es env.x y) rows → r.code = 0 ∧ r.wrong = 0 := by
      intro r y hy hs
      have hall : ∀ i < rows, env.fl.ne (spmvSum es env.x env.y1 i) (spmvSum es env.x y i) = false := by
        intro i hi
        unfold spmvSum
        rw [(hz i hi).1, hy i hi]
        exact hrefl _
      refine ⟨hs.1.same.2 hall, ?_⟩
      rw [hs.1.count, Finset.card_eq_zero, Finset.filter_eq_empty_iff]
      intro i hi
      rw [hall i (Finset.mem_range.1 hi)]
      decide
    rcases List.mem_cons.1 hr' with rfl | h'
    · exact key _ _ (fun i hi => (hz i hi).2) h1
    · exact key _ _ (fun _ _ => rfl) (h2 r h')
  · have hs := h2 r hr'
    refine ⟨hs.2.resolve_left (fun h0 => ?_), ?_⟩
    · rw [hs.1.same.1 h0 i hi] at hd
      cases hd
    · rw [hs.1.count]
      exact Finset.card_ne_zero.2 ⟨i, by simp [hi, hd]⟩

/-- **C70**, small matrices: as many rows as make `pick_block_size` answer 0 (C31) stop the program with a division by zero, after the
comparisons for CSR(2) and CSWR. -/
theorem C70_small [Add T] [Mul T] [Zero T] (hv : cv.Exact (fun _ => True)) (hfuel : 0 < fuel) (hval : m.valSize ≤ l2Size)
    (hw : 8 * m.workers < 2 ^ 31) (hsmall : rows ≤ max 2 (4 * m.workers) ∧ (1 < m.workers ∨ rows ≤ 2)) (hr : rows + 32 < 2 ^ 32)
    (hc : columns < 2 ^ 32) (hn : es.length < 2 ^ 32) (hin : InRange es rows columns) (hf : FileHolds cv conv fs name rows columns es) :
    resultMain env m cv conv fuel fs (name :: rest) = .error .divZero := by
  have hread := driverRead_ok cv hv conv fuel hfuel fs name rows columns es (by omega) hc hn hin hf
  have hpick := C31_small_zero m.logbeta rows columns m.valSize m.workers hc hval hw hsmall
  have hlen : (asElements es).length = es.length := List.length_map _
  obtain ⟨A1, s1, a1, p1, m1⟩ := csr_step (asElements es) rows columns (by omega) (by omega) (by omega) (by rw [ents_asElements]; exact hin)
  rw [ents_asElements] at p1
  have l1 : s1.length = es.length := by have := p1.perm.length_eq; unfold ents at this; rw [List.length_map] at this; exact this
  obtain ⟨A2, s2, a2, p2, m2⟩ := csr2_step s1 rows columns (by omega) (by omega) (p1.inRange hin)
  have q2 := p2.trans p1
  have l2 := length_of_samePlaces p2
  obtain ⟨A3, s3, a3, p3, m3⟩ := cswr_step s2 rows columns 32 (by decide) (by decide) (by omega) (by omega) (q2.inRange hin)
  unfold resultMain
  simp only
  rw [hread, ok_bind]
  simp only
  have hz : (if 0 > rows then rows else 0) = 0 := if_neg (by omega)
  have hz' : (if 0 > columns then columns else 0) = 0 := if_neg (by omega)
  rw [hpick, ok_bind]
  simp only [hz, hz']
  rw [a1, ok_bind]
  simp only
  rw [m1.hmul, ok_bind, a2, ok_bind]
  simp only
  rw [resultSection_report env _ rows columns _ _ m2 _ _ _ (by omega), ok_bind, a3, ok_bind]
  simp only
  rw [resultSection_report env _ rows columns _ _ m3 _ _ _ (by omega), ok_bind]
  rfl

/-- **C70**: no argument, or a file that cannot be used: status 1 and no comparison. -/
theorem C70_refused [Add T] [Mul T] [Zero T] (hv : cv.Exact (fun _ => True)) (h : Unusable cv fs name) :
    resultMain env m cv conv fuel fs (name :: rest) = .ok (1, []) ∧ resultMain env m cv conv fuel fs [] = .ok (1, []) := by
  refine ⟨?_, rfl⟩
  unfold resultMain
  simp only
  rw [driverRead_unusable cv conv fuel fs hv name h, ok_bind]

end

/-! ### The hypotheses are met -/

/-- C69: three places, one difference. -/
example : ∃ r, checkResults (2 ^ 32) (exactArith (fun a : ℚ => a)) (Buf.full 3 (fun i => (i : ℚ))) (Buf.full 5 (fun _ => 1)) 2 = .ok r ∧
    r.Says (exactArith (fun a : ℚ => a)) (fun i => (i : ℚ)) (fun _ => 1) 2 ∧ r.code = -1 := by
  obtain ⟨r, h1, h2, h3⟩ := C69_check (2 ^ 32) (exactArith (fun a : ℚ => a)) (fun i => (i : ℚ)) (fun _ => 1) 3 5 2 (by decide) (by decide)
    (by decide)
  refine ⟨r, h1, ⟨h2, h3⟩, h3.resolve_left (fun h => ?_)⟩
  have := h2.same.1 h 0 (by decide)
  simp [exactArith] at this

/-- Comparison of bytes. -/
def byteArith : Arith UInt8 := ⟨fun a b => a != b, fun a b => decide (b < a), fun a b => a - b, fun a b => a / b, fun n => UInt8.ofNat n, id, id⟩

/-- The environment of a run: `y1` and `y2` get memory full of `v`. -/
def exEnv (v : UInt8) : ResultEnv UInt8 := ⟨byteArith, fun _ => v, fun _ => v, fun _ => 1, fun _ _ _ => .dense, fun _ _ _ => true⟩

open scoped UInt8.CommRing in
/-- C70: a run on zeroed memory, where all comparisons succeed, and one on memory that is not, where six of them fail. -/
example : (∃ rs, resultMain (exEnv 0) exMachine byteCodec (fun _ => 0) 1 exFiles ["a.bin"] = .ok (0, rs) ∧ rs.length = 7 ∧
      ∀ r ∈ rs, r.code = 0) ∧
    ∃ rs, resultMain (exEnv 1) exMachine byteCodec (fun _ => 0) 1 exFiles ["a.bin"] = .ok (0, rs) ∧ rs.length = 7 ∧
      ∀ r ∈ rs.tail, r.code = -1 := by
  have hf : FileHolds byteCodec (fun _ => 0) exFiles "a.bin" 1000 1000 [⟨999, 3, 7⟩, ⟨0, 999, 5⟩] := .inl ⟨⟨['a'], by decide⟩, rfl⟩
  have hin : InRange [(⟨999, 3, 7⟩ : Ent UInt8), ⟨0, 999, 5⟩] 1000 1000 := by decide
  have hpick : pickBlockSize 32 exMachine.logbeta 1000 1000 exMachine.valSize exMachine.workers = .ok 32 := by decide +kernel
  constructor
  · obtain ⟨rs, h1, h2, h3, -⟩ := C70_fresh_memory (exEnv 0) exMachine byteCodec (fun _ => 0) 1 exFiles "a.bin" [] 1000 1000 32 _
      byteCodec_exact (by decide) (by decide) (by decide) (by decide) (.inr (by decide)) hpick (by decide) (by simp) (by decide) (by decide)
      (by decide) (by simp) hin hf
    exact ⟨rs, h1, h2, fun r hr => (h3 (fun v => by simp [exEnv, byteArith]) (fun i _ => ⟨rfl, rfl⟩) r hr).1⟩
  · obtain ⟨rs, h1, h2, -, h3⟩ := C70_fresh_memory (exEnv 1) exMachine byteCodec (fun _ => 0) 1 exFiles "a.bin" [] 1000 1000 32 _
      byteCodec_exact (by decide) (by decide) (by decide) (by decide) (.inr (by decide)) hpick (by decide) (by simp) (by decide) (by decide)
      (by decide) (by simp) hin hf
    exact ⟨rs, h1, h2, fun r hr => (h3 ⟨1, by decide, by decide⟩ r hr).1⟩

end Gsb
