import Verif.Proof.Float
import Verif.Props.Workers
import Verif.Model.Choice
/-
C84, the other direction: an unbalanced CGBR matrix whose product depends on the number of threads.
-/
namespace Gsb
variable {T : Type}

/-! ### A stable sort the kernel can run -/

/-- Insertion, before the first element that is greater. -/
def ins {α : Type} (le : α → α → Bool) (a : α) : List α → List α
  | [] => [a]
  | b :: l => if le a b then a :: b :: l else b :: ins le a l

def insSort {α : Type} (le : α → α → Bool) : List α → List α
  | [] => []
  | a :: l => ins le a (insSort le l)

theorem ins_perm {α : Type} (le : α → α → Bool) (a : α) (l : List α) : (ins le a l).Perm (a :: l) := by
  induction l with
  | nil => exact List.Perm.refl _
  | cons b l ih =>
    unfold ins
    split
    · exact List.Perm.refl _
    · exact (List.Perm.cons b ih).trans (List.Perm.swap a b l)

theorem ins_sorted {α : Type} {le : α → α → Bool} (h : TotalPre le) (a : α) (l : List α)
    (hl : l.Pairwise fun a b => le a b = true) : (ins le a l).Pairwise fun a b => le a b = true := by
  induction l with
  | nil => simp [ins]
  | cons b l ih =>
    rw [List.pairwise_cons] at hl
    unfold ins
    split
    · next hab =>
      refine List.pairwise_cons.2 ⟨?_, List.pairwise_cons.2 hl⟩
      intro c hc
      rcases List.mem_cons.1 hc with rfl | hc
      · exact hab
      · exact h.trans _ _ _ hab (hl.1 c hc)
    · next hab =>
      refine List.pairwise_cons.2 ⟨?_, ih hl.2⟩
      intro c hc
      rcases List.mem_cons.1 ((ins_perm le a l).mem_iff.1 hc) with rfl | hc
      · have := h.total c b
        simp_all
      · exact hl.1 c hc

theorem ins_filter {α : Type} {le : α → α → Bool} (h : TotalPre le) (a : α) (l : List α) (c : α) :
    (ins le a l).filter (fun b => le c b && le b c) = (a :: l).filter (fun b => le c b && le b c) := by
  induction l with
  | nil => rfl
  | cons b l ih =>
    unfold ins
    split
    · rfl
    · next hab =>
      rw [List.filter_cons, ih, List.filter_cons, List.filter_cons (x := a) (xs := b :: l), List.filter_cons]
      by_cases ha : (le c a && le a c) = true
      · by_cases hb : (le c b && le b c) = true
        · simp only [Bool.and_eq_true] at ha hb
          exact absurd (h.trans _ _ _ ha.2 hb.1) hab
        · simp [ha, hb]
      · simp [ha]

theorem insSort_stable {α : Type} {le : α → α → Bool} (h : TotalPre le) (l : List α) : IsStableSort le l (insSort le l) := by
  induction l with
  | nil => exact ⟨List.Perm.refl _, List.Pairwise.nil, fun _ => rfl⟩
  | cons a l ih =>
    refine ⟨(ins_perm le a _).trans (List.Perm.cons a ih.perm), ins_sorted h a _ ih.sorted, fun c => ?_⟩
    rw [insSort, ins_filter h, List.filter_cons, ih.stable, List.filter_cons]

theorem pssSort_ins {α : Type} {lt : α → α → Bool} (h : TotalPre (leOf lt)) : pssSort lt = insSort (leOf lt) :=
  funext fun l => isStableSort_unique h (isStableSort_mergeSort h l) (insSort_stable h l)

open Lean Elab Tactic Meta in
/-- Closes `a = b` with reflexivity, leaving it to the kernel to compute both sides (the elaborator, which would do it first for
`rfl`, is too slow here).  Nothing is assumed: the kernel rejects the theorem if the sides differ. -/
elab "krfl" : tactic => do
  let g ← getMainGoal
  let t ← instantiateMVars (← g.getType)
  let some (_, _, b) := t.eq? | throwError "not an equation"
  g.assign (← mkExpectedTypeHint (← mkEqRefl b) t)
  replaceMainGoal []

/-! ### The matrix -/

/-- 3×8, ten entries, eight of them in the first row. -/
def unevenMat (a : Nat → T) : List (Element T) :=
  (List.range 8).map (fun j => ⟨0, j, a j, 0⟩) ++ [⟨1, 0, a 8, 0⟩, ⟨2, 0, a 9, 0⟩]

/-- Row 0 of the product `y + A x` when `unevenMat a` is converted to CGBR with 1×1 blocks by `w` threads: 8-byte values, 32-bit
indices, 16-bit local indices, block types as the program chooses them, and a block-row heavy when it has more than twice the mean. -/
def unevenRun [Add T] [Mul T] [Zero T] (w : Nat) (a x y : Nat → T) : C T := do
  let r ← cooToCgbr (2 ^ 32) (2 ^ 16) w (chooseCgbr 8 4 2) (fun nnz blockrows l => decide (l.sum * blockrows > 2 * nnz))
    (unevenMat a) 3 8 [0, 1, 2, 3] 3 [0, 1, 2, 3, 4, 5, 6, 7, 8] 8
  let y ← r.1.spmv (2 ^ 32) (Buf.full 8 x) (Buf.full 3 y)
  y.get 0

/-- **C84**: with one thread and with two the terms of a row of an unbalanced CGBR matrix are added in different groups. -/
theorem C84_unbalanced [Add T] [Mul T] [Zero T] (a x y : Nat → T) :
    unevenRun 1 a x y =
      .ok (y 0 + a 0 * x 0 + a 1 * x 1 + a 2 * x 2 + a 3 * x 3 + a 4 * x 4 + (0 + a 5 * x 5 + a 6 * x 6 + a 7 * x 7)) ∧
    unevenRun 2 a x y =
      .ok (y 0 + a 0 * x 0 + a 1 * x 1 +
        (0 + a 2 * x 2 + a 3 * x 3 + a 4 * x 4 + (0 + a 5 * x 5 + a 6 * x 6 + a 7 * x 7))) := by
  unfold unevenRun cooToCgbr cooToMatrixBlock cooToBlockCoo
  simp only [sortElementsBlocks, pssSort_ins totalPre_blocks, sortTripletsMorton, pssSort_ins (totalPre_morton _)]
  constructor
  · krfl
  · krfl

/-! ### In doubles -/

theorem nearestEven_near {q : ℚ} {n : ℤ} (h : |q - n| < 1 / 2) : nearestEven q = n := by
  have h1 := nearestEven_error q
  rw [abs_lt] at h
  rw [abs_le] at h1
  have : ((nearestEven q - n : ℤ) : ℚ) < 1 ∧ (-1 : ℚ) < ((nearestEven q - n : ℤ) : ℚ) := by
    push_cast
    constructor <;> linarith
  have h2 : nearestEven q - n < 1 := by exact_mod_cast this.1
  have h3 : -1 < nearestEven q - n := by exact_mod_cast this.2
  omega

theorem log_one {q : ℚ} (h1 : 1 ≤ q) (h2 : q < 2) : Int.log 2 q = 0 := by
  refine le_antisymm ?_ ?_
  · have h3 : Int.log 2 q < 1 := (Int.lt_zpow_iff_log_lt (by norm_num) (by linarith)).1 (by norm_num; exact h2)
    omega
  · exact (Int.zpow_le_iff_le_log (by norm_num) (by linarith)).1 (by norm_num; exact h1)

/-- Rounding between 1 and 2. -/
theorem round_one {q : ℚ} (n : ℤ) (h1 : 1 ≤ q) (h2 : q < 2) (h : |q * 2 ^ 52 - n| < 1 / 2) :
    roundTo 53 (-1074) q = n / 2 ^ 52 := by
  have hu : ulpExp 53 (-1074) q = -52 := by
    unfold ulpExp
    rw [abs_of_nonneg (by linarith), log_one h1 h2]
    norm_num
  unfold roundTo
  rw [hu, show (2 : ℚ) ^ (-52 : ℤ) = 1 / 2 ^ 52 by norm_num, show q / (1 / 2 ^ 52) = q * 2 ^ 52 by field_simp, nearestEven_near h]
  ring

/-- A double. -/
def dbl (q : ℚ) (h : Representable 53 (-1074) 1023 q) : Binary64 := some ⟨q, h⟩

theorem dbl_add {a b c : ℚ} (ha hb hc) (h : roundTo 53 (-1074) (a + b) = c) : dbl a ha + dbl b hb = dbl c hc := by
  subst h
  exact dif_pos hc

theorem dbl_mul {a b c : ℚ} (ha hb hc) (h : roundTo 53 (-1074) (a * b) = c) : dbl a ha * dbl b hb = dbl c hc := by
  subst h
  exact dif_pos hc

theorem rep_small (k : Nat) (h : k < 2 ^ 53) : Representable 53 (-1074) 1023 (k / 2 ^ 56) := by
  refine ⟨k, -56, ?_, ?_, by norm_num, ?_⟩
  · norm_num; ring
  · rw [abs_of_nonneg (by positivity)]; exact_mod_cast h
  · rw [abs_of_nonneg (by positivity)]
    have : (k : ℚ) < 2 ^ 53 := by exact_mod_cast h
    have h2 : (k : ℚ) / 2 ^ 56 < 1 := by rw [div_lt_one (by positivity)]; refine lt_trans this (by norm_num)
    exact lt_of_lt_of_le h2 (one_le_zpow₀ (by norm_num) (by norm_num))

theorem rep_one (k : Nat) (h : k < 2 ^ 52) : Representable 53 (-1074) 1023 (1 + k / 2 ^ 52) := by
  refine ⟨2 ^ 52 + k, -52, ?_, ?_, by norm_num, ?_⟩
  · push_cast; norm_num; ring
  · rw [abs_of_nonneg (by positivity)]
    have : (k : ℤ) < 2 ^ 52 := by exact_mod_cast h
    linarith
  · rw [abs_of_nonneg (by positivity)]
    have : (k : ℚ) < 2 ^ 52 := by exact_mod_cast h
    have h2 : (k : ℚ) / 2 ^ 52 < 1 := by rw [div_lt_one (by positivity)]; exact this
    have h3 := two_le (a := 1) (b := 1023 + 1) (by norm_num)
    rw [zpow_one] at h3
    exact lt_of_lt_of_le (by linarith : _ < (2 : ℚ)) h3

/-- `k · 2^-56`. -/
def tiny (k : Nat) (h : k < 2 ^ 53) : Binary64 := dbl (k / 2 ^ 56) (rep_small k h)
/-- `1 + k · 2^-52`. -/
def near1 (k : Nat) (h : k < 2 ^ 52) : Binary64 := dbl (1 + k / 2 ^ 52) (rep_one k h)

theorem tiny_add (j k : Nat) (hj hk) (h : j + k < 2 ^ 53) : tiny j hj + tiny k hk = tiny (j + k) h := by
  refine dbl_add _ _ _ ?_
  rw [show (j : ℚ) / 2 ^ 56 + k / 2 ^ 56 = ((j + k : Nat) : ℚ) / 2 ^ 56 by push_cast; ring]
  exact roundTo_representable (rep_small (j + k) h)

theorem zero_tiny (k : Nat) (hk) : 0 + tiny k hk = tiny k hk := by
  have : (0 : Binary64) = tiny 0 (by norm_num) :=
    congrArg some (Subtype.ext (a1 := ⟨0, representable_zero _ _ _⟩) (by norm_num))
  rw [this, tiny_add 0 k _ hk (by omega)]
  congr 1
  omega

/-- `1 + k·2^-56` rounds to the nearest multiple of `2^-52`. -/
theorem one_tiny (k r : Nat) (h0 hk hr) (hkr : k < 2 ^ 20) (h : k + 7 < 16 * r + 15 ∧ 16 * r < k + 8) :
    near1 0 h0 + tiny k hk = near1 r hr := by
  refine dbl_add _ _ _ ?_
  have hkq : (k : ℚ) < 2 ^ 20 := by exact_mod_cast hkr
  have e1 : (k : ℚ) + 7 < 16 * r + 15 := by exact_mod_cast h.1
  have e2 : (16 : ℚ) * r < k + 8 := by exact_mod_cast h.2
  have e0 : (0 : ℚ) ≤ k := by positivity
  have e3 : |(1 + ((0 : ℕ) : ℚ) / 2 ^ 52 + k / 2 ^ 56) * 2 ^ 52 - ((2 ^ 52 + r : ℤ) : ℚ)| < 1 / 2 := by
    rw [show (1 + ((0 : ℕ) : ℚ) / 2 ^ 52 + k / 2 ^ 56) * 2 ^ 52 - ((2 ^ 52 + r : ℤ) : ℚ) = k / 16 - r by push_cast; ring, abs_lt]
    constructor <;> linarith
  rw [round_one (2 ^ 52 + r) (by norm_num; positivity) (by norm_num; linarith) e3]
  push_cast
  ring

theorem tiny_one (k : Nat) (hk h0) : tiny k hk * near1 0 h0 = tiny k hk := by
  refine dbl_mul _ _ _ ?_
  rw [show (k : ℚ) / 2 ^ 56 * (1 + ((0 : ℕ) : ℚ) / 2 ^ 52) = k / 2 ^ 56 by norm_num]
  exact roundTo_representable (rep_small k hk)

/-- **C84**: the number of threads can change the result in doubles: with every entry of the matrix `5·2^-56` and all of `x` and `y`
equal to 1, one thread gives `1 + 2^-52` and two give `1 + 2^-51`. -/
theorem C84_threads_matter : ∃ a x y : Nat → Binary64, ∃ r₁ r₂ : Binary64,
    unevenRun 1 a x y = .ok r₁ ∧ unevenRun 2 a x y = .ok r₂ ∧ r₁.val = 1 + 2 ^ (-52 : ℤ) ∧ r₂.val = 1 + 2 ^ (-51 : ℤ) := by
  have h := C84_unbalanced (fun _ => tiny 5 (by norm_num)) (fun _ => near1 0 (by norm_num)) (fun _ => near1 0 (by norm_num))
  refine ⟨fun _ => tiny 5 (by norm_num), fun _ => near1 0 (by norm_num), fun _ => near1 0 (by norm_num), near1 1 (by norm_num),
    near1 2 (by norm_num), ?_, ?_, ?_, ?_⟩
  · rw [h.1]
    simp only [tiny_one]
    rw [zero_tiny, tiny_add 5 5 _ _ (by norm_num), tiny_add 10 5 _ _ (by norm_num)]
    simp only [one_tiny 5 0 (by norm_num) (by norm_num) (by norm_num) (by norm_num) (by norm_num)]
    rw [one_tiny 15 1 (by norm_num) (by norm_num) (by norm_num) (by norm_num) (by norm_num)]
  · rw [h.2]
    simp only [tiny_one]
    rw [zero_tiny, tiny_add 5 5 _ _ (by norm_num), tiny_add 10 5 _ _ (by norm_num), tiny_add 15 15 _ _ (by norm_num)]
    simp only [one_tiny 5 0 (by norm_num) (by norm_num) (by norm_num) (by norm_num) (by norm_num)]
    rw [one_tiny 30 2 (by norm_num) (by norm_num) (by norm_num) (by norm_num) (by norm_num)]
  · show (((1 + ((1 : ℕ) : ℚ) / 2 ^ 52 : ℚ)) : ℝ) = _
    push_cast; norm_num
  · show (((1 + ((2 : ℕ) : ℚ) / 2 ^ 52 : ℚ)) : ℝ) = _
    push_cast; norm_num

end Gsb
