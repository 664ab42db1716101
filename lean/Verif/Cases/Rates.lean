import Verif.Cases.Blocks
import Verif.Props.Rates
/-
Concrete cases for C89.
-/
namespace Gsb

/-- The coordinates of `exE` and `exD`, the values known by what they took: nothing. -/
def exOps : List (Element Ops) := exE.map fun e => { e with val := 0 }
def exOpsD : List (Element Ops) := exD.map fun e => { e with val := 0 }

example := C89_operations (2 ^ 32) 65536 8 4 3 2 2 exOps (by decide) _ _ _ _ exR exC (by decide) (by decide) (by decide) (by decide) (by decide)
  (by decide) (by decide) (by decide) (by decide) (by decide) (by decide) (by decide) (by decide) (by decide)
example := C89_cgbr (2 ^ 32) (2 ^ 16 - 1) (2 ^ 16 - 1) 8 4 3 exChoose (fun _ _ _ => true) exOpsD (by decide) _ _ _ _ exR exC (Nat.le_refl _) exR_small
  exC_small (fun _ _ _ h1 h2 _ _ => small_square h1 h2) (.inr (by decide)) (by decide) (by decide) (by decide) (by decide) (by decide) (by decide)
  (by decide) (by decide) (by decide)
example := C89_dense (2 ^ 32) 4 3 exOpsD (by decide) (by decide) (by decide)

/-- `(y + a * x) + b * x`: two of each. -/
example : (0 + 0 * 0 + 0 * 0 : Ops) = ⟨2, 2⟩ := rfl

/-- Conversions that lose nothing. -/
theorem exFloats : RoundsMonotonely (⟨id, id⟩ : Floats ℚ ℚ) :=
  ⟨fun _ _ h => h, fun a b h => mul_le_mul_of_nonneg_right h (by norm_num),
    fun n a b ha hab => div_le_div_of_nonneg_left (mul_nonneg (Nat.cast_nonneg _) (Nat.cast_nonneg _)) ha hab,
    fun t ht => mul_pos ht (by norm_num)⟩

def exTimes : List ℚ := [1 / 2, 1 / 4, 1]

example := (C89_printed (⟨id, id⟩ : Floats ℚ ℚ) 1000000 exTimes (by decide)).1 (by decide)
example := (C89_printed (⟨id, id⟩ : Floats ℚ ℚ) 1000000 [] (by decide)).2 rfl
example : ∃ lines, printTimingVerbose (⟨id, id⟩ : Floats ℚ ℚ) 1000000 exTimes = .ok lines ∧
    ∃ best median mean worst : Line ℚ, lines = [best, median, mean, worst] ∧
      (best.mode, median.mode, mean.mode, worst.mode) = ("best", "median", "mean", "worst") ∧
      best.time ≤ median.time ∧ median.time ≤ worst.time ∧ worst.rate ≤ median.rate ∧ median.rate ≤ best.rate := by
  obtain ⟨s, -, h, -⟩ := (C89_printed (⟨id, id⟩ : Floats ℚ ℚ) 1000000 exTimes (by decide)).1 (by decide)
  exact ⟨_, h, C89_order _ exFloats 1000000 exTimes (by decide) (by decide +kernel) _ h⟩
example := C89_exact 1000000 exTimes (by decide) (by decide) (by decide +kernel)

end Gsb
