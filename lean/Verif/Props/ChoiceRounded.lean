import Verif.Props.Cgbr
/-
C51 for CGBR: the choice in rounded arithmetic, away from the borders.
-/
namespace Gsb

/-- **C51** for CGBR with every operation rounded with a relative error of at most 1% (float has less than a millionth): if the memory
the coordinate format takes is not within 7% of one and a half times what CSR takes, and the filled part of the block is not
between 28% and 32%, then the choice is the one the description gives. -/
theorem C51_cgbr_choice_rounded (fl : ℚ → ℚ) (hfl : ∀ q : ℚ, 0 ≤ q → q * (99 / 100) ≤ fl q ∧ fl q ≤ q * (101 / 100))
    (sT sI sS rows columns nnz : Nat) (hr : 0 < rows) (hc : 0 < columns) (hT : 0 < sT) (hn : 0 < nnz) :
    let coo : ℚ := nnz * (2 * sS + sT)
    let csr : ℚ := rows * sI + nnz * (sS + sT)
    let filled : ℚ := nnz / (rows * columns)
    (coo ≤ 94 / 100 * (3 / 2 * csr) → chooseCgbrFl fl sT sI sS rows columns nnz = .coo) ∧
      (107 / 100 * (3 / 2 * csr) ≤ coo → filled ≤ 28 / 100 → chooseCgbrFl fl sT sI sS rows columns nnz = .csr) ∧
      (107 / 100 * (3 / 2 * csr) ≤ coo → 32 / 100 ≤ filled → chooseCgbrFl fl sT sI sS rows columns nnz = .dense) := by
  intro coo csr filled
  have hn' : (0 : ℚ) < nnz := by exact_mod_cast hn
  have hr' : (0 : ℚ) < rows := by exact_mod_cast hr
  have hc' : (0 : ℚ) < columns := by exact_mod_cast hc
  have hT' : (0 : ℚ) < sT := by exact_mod_cast hT
  have hS0 : (0 : ℚ) ≤ sS := by exact_mod_cast Nat.zero_le _
  have hI0 : (0 : ℚ) ≤ sI := by exact_mod_cast Nat.zero_le _
  -- the memory of the coordinate format
  have a1 := hfl nnz hn'.le
  have a0 : (0 : ℚ) ≤ fl nnz := by linarith [a1.1]
  have k0 : (0 : ℚ) < 2 * sS + sT := by linarith
  have b1 := hfl (fl nnz * (2 * sS + sT)) (mul_nonneg a0 k0.le)
  have b2 : coo * (99 / 100) ≤ fl nnz * (2 * sS + sT) := by
    have := mul_le_mul_of_nonneg_right a1.1 k0.le
    simp only [coo]; linarith
  have b3 : fl nnz * (2 * sS + sT) ≤ coo * (101 / 100) := by
    have := mul_le_mul_of_nonneg_right a1.2 k0.le
    simp only [coo]; linarith
  have coo0 : 0 < coo := mul_pos hn' k0
  -- the memory of CSR
  have c1 := hfl rows hr'.le
  have c0 : (0 : ℚ) ≤ fl rows := by linarith [c1.1]
  have d1 := hfl (fl rows * sI) (mul_nonneg c0 hI0)
  have d2 := mul_le_mul_of_nonneg_right c1.1 hI0
  have d3 := mul_le_mul_of_nonneg_right c1.2 hI0
  have p0 : (0 : ℚ) ≤ rows * sI := mul_nonneg hr'.le hI0
  have q0 : (0 : ℚ) < nnz * (sS + sT) := mul_pos hn' (by linarith)
  have e1 := hfl (nnz * (sS + sT)) q0.le
  have e0 : (0 : ℚ) ≤ fl (fl rows * sI) + fl (nnz * (sS + sT)) := by linarith [d1.1, e1.1, mul_nonneg c0 hI0]
  have f1 := hfl _ e0
  have csr0 : 0 < csr := by simp only [csr]; linarith
  have f2 : csr * (9801 / 10000) ≤ fl (fl rows * sI) + fl (nnz * (sS + sT)) := by
    simp only [csr]; linarith [d1.1, e1.1]
  have f3 : fl (fl rows * sI) + fl (nnz * (sS + sT)) ≤ csr * (10201 / 10000) := by
    simp only [csr]; linarith [d1.2, e1.2]
  have g1 := hfl (3 / 2 * fl (fl (fl rows * sI) + fl (nnz * (sS + sT)))) (by linarith [f1.1])
  -- the filled part
  have h1 := hfl columns hc'.le
  have h0 : (0 : ℚ) ≤ fl columns := by linarith [h1.1]
  have rc0 : (0 : ℚ) < rows * columns := mul_pos hr' hc'
  have i1 := hfl (fl rows * fl columns) (mul_nonneg c0 h0)
  have i2 : (rows * columns : ℚ) * (9801 / 10000) ≤ fl rows * fl columns := by
    have := mul_le_mul c1.1 h1.1 (by linarith) c0
    linarith
  have i3 : fl rows * fl columns ≤ (rows * columns : ℚ) * (10201 / 10000) := by
    have := mul_le_mul c1.2 h1.2 h0 (by linarith)
    linarith
  have i0 : (0 : ℚ) < fl (fl rows * fl columns) := by linarith [i1.1]
  have j1 := hfl (fl nnz / fl (fl rows * fl columns)) (div_nonneg a0 i0.le)
  have hfill : filled * (rows * columns) = nnz := by
    simp only [filled]
    exact div_mul_cancel₀ _ rc0.ne'
  have fill0 : 0 < filled := div_pos hn' rc0
  have l1 := hfl (3 / 10) (by norm_num)
  have ratio_lo : filled * (95 / 100) ≤ fl (fl nnz / fl (fl rows * fl columns)) := by
    have : filled * (96 / 100) ≤ fl nnz / fl (fl rows * fl columns) := by
      rw [le_div_iff₀ i0]
      have := mul_le_mul_of_nonneg_left (show fl (fl rows * fl columns) ≤ (rows * columns : ℚ) * (1030301 / 1000000) by linarith [i1.2]) fill0.le
      linarith [a1.1]
    linarith [j1.1]
  have ratio_hi : fl (fl nnz / fl (fl rows * fl columns)) ≤ filled * (106 / 100) := by
    have : fl nnz / fl (fl rows * fl columns) ≤ filled * (1045 / 1000) := by
      rw [div_le_iff₀ i0]
      have := mul_le_mul_of_nonneg_left (show (rows * columns : ℚ) * (970299 / 1000000) ≤ fl (fl rows * fl columns) by linarith [i1.1]) fill0.le
      linarith [a1.2]
    linarith [j1.2]
  unfold chooseCgbrFl
  simp only
  push_cast
  refine ⟨fun h => ?_, fun h h' => ?_, fun h h' => ?_⟩
  · rw [if_pos]
    linarith [b1.2, f1.1, g1.1]
  · rw [if_neg (by rw [not_lt]; linarith [b1.1, f1.2, g1.2]), if_pos]
    linarith [l1.1]
  · rw [if_neg (by rw [not_lt]; linarith [b1.1, f1.2, g1.2]), if_neg]
    rw [not_lt]
    linarith [l1.2]

end Gsb
