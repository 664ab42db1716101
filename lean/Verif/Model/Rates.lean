import Verif.Model.Drivers
/-
Model of what the timing functions of src/common.cpp print.
-/
namespace Gsb
variable {τ φ : Type}

/-- The conversions between `double` (`τ`) and `float` (`φ`). -/
structure Floats (τ φ : Type) where
  narrow : τ → φ
  widen : φ → τ

/-- `mflops(nnz, t)` — common.cpp:29-32. -/
def mflops [Mul τ] [Div τ] [NatCast τ] (fl : Floats τ φ) (nnz : Nat) (t : φ) : φ :=
  fl.narrow ((2 : Nat) * nnz / (fl.widen t * (1000000 : Nat)))

/-- One mode of `print_timing(method, mode, nnz, t)`: its name, the time and the rate. -/
structure Line (φ : Type) where
  mode : String
  time : φ
  rate : φ
  deriving DecidableEq, Repr

/-- `print_timing(method, mode, nnz, t)` — common.cpp:40-44.  The rounding of the numbers printed (`%.6f`, `%.0f`) is not modelled. -/
def printTiming [Mul τ] [Div τ] [NatCast τ] (fl : Floats τ φ) (nnz : Nat) (mode : String) (t : τ) : Line φ :=
  ⟨mode, fl.narrow t, mflops fl nnz (fl.narrow t)⟩

section
variable [LinearOrder τ] [Add τ] [Zero τ] [Mul τ] [Div τ] [NatCast τ]

/-- `print_timing_verbose` — common.cpp:46-53; the sorting and the four times are `timingStats`. -/
def printTimingVerbose (fl : Floats τ φ) (nnz : Nat) (times : List τ) : C (List (Line φ)) := do
  let s ← timingStats (fun t n => t / (n : τ)) times
  .ok [printTiming fl nnz "best" s.best, printTiming fl nnz "median" s.median, printTiming fl nnz "mean" s.mean,
    printTiming fl nnz "worst" s.worst]

/-- The four numbers of `print_timing_csv` — common.cpp:55-65. -/
def printTimingCsv (fl : Floats τ φ) (nnz : Nat) (times : List τ) : C (List φ) := do
  let s ← timingStats (fun t n => t / (n : τ)) times
  .ok [mflops fl nnz (fl.narrow s.best), mflops fl nnz (fl.narrow s.median), mflops fl nnz (fl.narrow s.mean),
    mflops fl nnz (fl.narrow s.worst)]

end
end Gsb
