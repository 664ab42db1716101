import Mathlib.Algebra.Order.Field.Basic
import Mathlib.Algebra.BigOperators.Group.Finset.Basic
/-
Specification of a comparison of two vectors.  Nothing here refers to the code.
-/
namespace Gsb

/-- `number` is the number of places below `size` where the vectors differ, and `none` says whether there are none; `ne` decides what
"differ" means (for floating point numbers, NaN differs from itself). -/
structure Differences {T : Type} (ne : T → T → Bool) (f g : Nat → T) (size number : Nat) (none : Prop) : Prop where
  count : number = ((Finset.range size).filter (fun i => ne (f i) (g i) = true)).card
  same : none ↔ ∀ i < size, ne (f i) (g i) = false

/-- The mean squared error of `g`, the same relative to `f`, and the greatest absolute difference. -/
structure Errors {K : Type} [Field K] [LinearOrder K] [IsStrictOrderedRing K] (f g : Nat → K) (size : Nat) (m n worst : K) : Prop where
  mse : m = (∑ i ∈ Finset.range size, (f i - g i) ^ 2) / size
  nmse : n = m / ∑ i ∈ Finset.range size, f i ^ 2
  bound : ∀ i < size, |f i - g i| ≤ worst
  attained : worst = 0 ∨ ∃ i < size, worst = |f i - g i|

/-- `v` is the element of rank `k` (counting from 0) of the data. -/
def HasRank {K : Type} [LinearOrder K] (data : List K) (k : Nat) (v : K) : Prop :=
  v ∈ data ∧ data.countP (· < v) ≤ k ∧ k < data.countP (· ≤ v)

/-- `m` is the median: the mean of the two middle elements, which are the same if the number of elements is odd. -/
def IsMedian {K : Type} [Field K] [LinearOrder K] (data : List K) (m : K) : Prop :=
  ∃ a b, HasRank data ((data.length - 1) / 2) a ∧ HasRank data (data.length / 2) b ∧ m = (a + b) / 2

end Gsb
