import Verif.Spec.Total
import Mathlib.Data.Int.Log
import Mathlib.Data.Rat.Floor
import Mathlib.Algebra.Order.Round
import Mathlib.Tactic.Positivity
/-
IEEE 754 binary floating point numbers with rounding to nearest, ties to even, and gradual underflow; nothing here refers to the
code.  The infinities and NaN are one value (`none`) and the two zeroes are one: the properties are about finite results, and
neither distinction can be seen in a finite result except for the sign of a zero.
-/
namespace Gsb

/-- The nearest integer, the even one of two. -/
def nearestEven (q : ℚ) : ℤ := if Int.fract q = 1 / 2 then 2 * round (q / 2) else round q

/-- The exponent of the last place of `q` with `p` significant bits, not below `emin`. -/
def ulpExp (p : Nat) (emin : ℤ) (q : ℚ) : ℤ := max (Int.log 2 |q| - (p - 1)) emin

/-- `q` rounded to `p` significant bits, and to multiples of `2^emin`. -/
def roundTo (p : Nat) (emin : ℤ) (q : ℚ) : ℚ := nearestEven (q / 2 ^ ulpExp p emin q) * 2 ^ ulpExp p emin q

/-- Numbers with `p` significant bits and exponents from `emin` (of the last place) to `emax` (of the first). -/
def Representable (p : Nat) (emin emax : ℤ) (q : ℚ) : Prop :=
  ∃ m e : ℤ, q = m * 2 ^ e ∧ |m| < 2 ^ p ∧ emin ≤ e ∧ |q| < 2 ^ (emax + 1)

/-- A floating point number; `none` is an infinity or NaN. -/
def Flt (p : Nat) (emin emax : ℤ) : Type := Option {q : ℚ // Representable p emin emax q}

open Classical in
/-- The result of an operation whose exact result is `q`. -/
noncomputable def Flt.ofExact {p : Nat} {emin emax : ℤ} (q : ℚ) : Flt p emin emax :=
  if h : Representable p emin emax (roundTo p emin q) then some ⟨_, h⟩ else none

theorem representable_zero (p : Nat) (emin emax : ℤ) : Representable p emin emax 0 :=
  ⟨0, emin, by simp, by simp, le_refl _, by rw [abs_zero]; exact zpow_pos (by norm_num) _⟩

instance (p : Nat) (emin emax : ℤ) : Zero (Flt p emin emax) := ⟨some ⟨0, representable_zero p emin emax⟩⟩

noncomputable instance (p : Nat) (emin emax : ℤ) : Add (Flt p emin emax) :=
  ⟨fun a b => match a, b with
    | some a, some b => Flt.ofExact (a.1 + b.1)
    | _, _ => none⟩

noncomputable instance (p : Nat) (emin emax : ℤ) : Mul (Flt p emin emax) :=
  ⟨fun a b => match a, b with
    | some a, some b => Flt.ofExact (a.1 * b.1)
    | _, _ => none⟩

/-- Finite. -/
def Flt.fin {p : Nat} {emin emax : ℤ} (a : Flt p emin emax) : Prop := a ≠ none

/-- The number represented (0 for an infinity or NaN). -/
noncomputable def Flt.val {p : Nat} {emin emax : ℤ} (a : Flt p emin emax) : ℝ :=
  match a with
  | some a => ((a.1 : ℚ) : ℝ)
  | none => 0

/-- binary32 (`float`) and binary64 (`double`). -/
abbrev Binary32 := Flt 24 (-149) 127
abbrev Binary64 := Flt 53 (-1074) 1023

end Gsb
