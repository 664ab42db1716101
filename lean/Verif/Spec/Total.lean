import Verif.Spec
import Mathlib.Data.Real.Basic
/-
Specification of a sum computed without any law of `+` or `*`, and of the arithmetic of floating point numbers.
Nothing here refers to the code.
-/
namespace Gsb

/-- `Total pad l a`: the value `a` comes out of additions, in some order and with some bracketing, in which every member of `l`
is a summand exactly once, and the only other summands satisfy `pad`. -/
inductive Total {T : Type} [Add T] (pad : T → Prop) : List T → T → Prop
  | one (a : T) : Total pad [a] a
  | pad {z : T} (h : pad z) : Total pad [] z
  | add {l l' : List T} {a b : T} (h : Total pad l a) (h' : Total pad l' b) : Total pad (l ++ l') (a + b)
  | perm {l l' : List T} {a : T} (h : l.Perm l') (h' : Total pad l a) : Total pad l' a

/-- No other summand. -/
def noPad {T : Type} : T → Prop := fun _ => False

/-- Other summands: zero, and zero times a component of `x` (there are `columns`). -/
def zeroPad {T : Type} [Zero T] [Mul T] (columns : Nat) (x : Nat → T) : T → Prop :=
  fun z => z = 0 ∨ ∃ c, c < columns ∧ z = 0 * x c

/-- The products of row `i`. -/
def products {T : Type} [Mul T] (es : List (Ent T)) (x : Nat → T) (i : Nat) : List T :=
  (rowEntries es i).map (fun e => e.val * x e.col)

/-- In each of the `rows` rows, `y'` is a sum of `y` and the products of that row, each exactly once. -/
def RowTotals {T : Type} [Add T] [Mul T] (pad : T → Prop) (es : List (Ent T)) (rows : Nat) (x y y' : Nat → T) : Prop :=
  ∀ i, i < rows → Total pad (y i :: products es x i) (y' i)

/-- Numbers with rounding, as in IEEE 754 with gradual underflow: `val` is the number represented, `fin` says that it is neither
infinite nor NaN, `u` is the unit round-off and `η` the absolute error of a product that underflows.  A finite result has finite
operands; adding a zero, and multiplying by zero, is exact. -/
structure Rounded (T : Type) [Add T] [Mul T] [Zero T] (val : T → ℝ) (fin : T → Prop) (u η : ℝ) : Prop where
  u_nonneg : 0 ≤ u
  η_nonneg : 0 ≤ η
  zero : val 0 = 0
  add_fin : ∀ a b, fin (a + b) → fin a ∧ fin b
  mul_fin : ∀ a b, fin (a * b) → fin a ∧ fin b
  add : ∀ a b, fin (a + b) → |val (a + b) - (val a + val b)| ≤ u * |val a + val b|
  mul : ∀ a b, fin (a * b) → |val (a * b) - val a * val b| ≤ u * |val a * val b| + η
  add_zero : ∀ a b, fin (a + b) → val b = 0 → val (a + b) = val a
  zero_add : ∀ a b, fin (a + b) → val a = 0 → val (a + b) = val b
  zero_mul : ∀ b, fin (0 * b) → val (0 * b) = 0

/-- Sums and products of finite numbers up to `Ω` do not overflow. -/
structure NoOverflow (T : Type) [Add T] [Mul T] [Zero T] (val : T → ℝ) (fin : T → Prop) (Ω : ℝ) : Prop where
  zero : fin 0
  add : ∀ a b, fin a → fin b → |val a + val b| ≤ Ω → fin (a + b)
  mul : ∀ a b, fin a → fin b → |val a * val b| ≤ Ω → fin (a * b)

/-- The exact result in row `i`, of the numbers represented. -/
noncomputable def exactRow {T : Type} (val : T → ℝ) (es : List (Ent T)) (x y : Nat → T) (i : Nat) : ℝ :=
  val (y i) + ((rowEntries es i).map (fun e => val e.val * val (x e.col))).sum

/-- The size of the terms of row `i`. -/
noncomputable def sizeRow {T : Type} (val : T → ℝ) (es : List (Ent T)) (x y : Nat → T) (i : Nat) : ℝ :=
  |val (y i)| + ((rowEntries es i).map (fun e => |val e.val| * |val (x e.col)|)).sum

/-- The a-priori bound of the error of a row with `m` entries and terms of size `s`. -/
noncomputable def errorBound (u η : ℝ) (m : Nat) (s : ℝ) : ℝ := ((1 + u) ^ (m + 1) - 1) * s + (1 + u) ^ m * (m * η)

/-- In each of the `rows` rows, a finite result is within the bound of the exact one. -/
def RowErrors {T : Type} (val : T → ℝ) (fin : T → Prop) (u η : ℝ) (es : List (Ent T)) (rows : Nat) (x y y' : Nat → T) : Prop :=
  ∀ i, i < rows → fin (y' i) →
    |val (y' i) - exactRow val es x y i| ≤ errorBound u η (rowEntries es i).length (sizeRow val es x y i)

end Gsb
