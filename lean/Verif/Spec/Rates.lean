import Verif.Spec
import Mathlib.Algebra.BigOperators.Group.Finset.Basic
/-
Counting floating point operations.  Nothing here refers to the code.
-/
namespace Gsb

/-- A value known by what it took to compute it: so many additions and so many multiplications. -/
structure Ops where
  adds : Nat
  muls : Nat
  deriving DecidableEq, Repr

/-- One addition more than computing both operands took. -/
instance : Add Ops := ⟨fun a b => ⟨a.adds + b.adds + 1, a.muls + b.muls⟩⟩
/-- One multiplication more. -/
instance : Mul Ops := ⟨fun a b => ⟨a.adds + b.adds, a.muls + b.muls + 1⟩⟩
/-- A value that is there already. -/
instance : Zero Ops := ⟨⟨0, 0⟩⟩

/-- Computing `y 0, …, y (rows - 1)` took so many additions and so many multiplications. -/
def Took (rows : Nat) (y : Nat → Ops) (adds muls : Nat) : Prop :=
  ∑ i ∈ Finset.range rows, (y i).adds = adds ∧ ∑ i ∈ Finset.range rows, (y i).muls = muls

/-- Computing them took at least so many. -/
def TookAtLeast (rows : Nat) (y : Nat → Ops) (adds muls : Nat) : Prop :=
  adds ≤ ∑ i ∈ Finset.range rows, (y i).adds ∧ muls ≤ ∑ i ∈ Finset.range rows, (y i).muls

end Gsb
