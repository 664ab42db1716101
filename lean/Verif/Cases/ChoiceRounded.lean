import Verif.Props.ChoiceRounded
/-
Concrete cases for C51's choice in rounded arithmetic.
-/
namespace Gsb

/-- A rounding that is always a tenth of a percent too high. -/
def exHigh (q : ℚ) : ℚ := q * (1001 / 1000)

theorem exHigh_ok : ∀ q : ℚ, 0 ≤ q → q * (99 / 100) ≤ exHigh q ∧ exHigh q ≤ q * (101 / 100) := by
  intro q hq
  constructor <;> simp only [exHigh] <;> linarith

-- values of one byte, places of eight: a full block is dense, one filled to a fifth is CSR
example : chooseCgbrFl exHigh 1 4 8 1000 1000 1000000 = .dense :=
  (C51_cgbr_choice_rounded exHigh exHigh_ok 1 4 8 1000 1000 1000000 (by decide) (by decide) (by decide) (by decide)).2.2
    (by norm_num) (by norm_num)
example : chooseCgbrFl exHigh 1 4 8 1000 1000 200000 = .csr :=
  (C51_cgbr_choice_rounded exHigh exHigh_ok 1 4 8 1000 1000 200000 (by decide) (by decide) (by decide) (by decide)).2.1
    (by norm_num) (by norm_num)
-- doubles and places of two bytes
example : chooseCgbrFl exHigh 8 4 2 1000 1000 200000 = .coo :=
  (C51_cgbr_choice_rounded exHigh exHigh_ok 8 4 2 1000 1000 200000 (by decide) (by decide) (by decide) (by decide)).1 (by norm_num)

end Gsb
