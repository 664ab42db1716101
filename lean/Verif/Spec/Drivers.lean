import Verif.Spec.MatrixMarket
import Mathlib.Order.Defs.LinearOrder
/-
Specification of what the benchmark programs need and report.  Nothing here refers to the code.
-/
namespace Gsb

/-- The file `name` describes the `rows × columns` matrix with the entries `es`, in this order: either its
name ends in `.bin` and it is a binary file with 32-bit indices, or its name ends in `.mtx` and it is a
MatrixMarket file (real or integer, general or symmetric).  `conv` is the conversion of a decimal number. -/
def FileHolds {T : Type} (cv : Codec T) (conv : Bytes → T) (files : String → Option Bytes) (name : String)
    (rows columns : Nat) (es : List (Ent T)) : Prop :=
  ((∃ p, name.toList = p ++ ".bin".toList) ∧ files name = some (binFile 4 cv rows columns es)) ∨
  ((∃ p, name.toList = p ++ ".mtx".toList) ∧ ∃ F : MmFile, F.Ok ∧ files name = some F.text ∧
    (F.field = chars "real" ∨ F.field = chars "integer") ∧ F.rows = rows ∧ F.columns = columns ∧
    rows < 2 ^ 31 ∧ columns < 2 ^ 31 ∧ F.nnz < 2 ^ 30 ∧
    ((F.symmetry = chars "general" ∧ es = F.lines.map (MmLine.ent conv)) ∨
      (F.symmetry = chars "symmetric" ∧ es = (F.lines.map (MmLine.ent conv)).flatMap mirrored)))

/-- The four numbers reported about a series of running times. -/
structure Stats (τ : Type) where
  best : τ
  median : τ
  mean : τ
  worst : τ

/-- The numbers are right: the least and the greatest time; the upper median, that is a time such that at most
half of the times are below it and more than half are not above it; and the sum of the times divided by
their number (`over` is the division). -/
structure Stats.Of {τ : Type} [LinearOrder τ] [AddCommMonoid τ] (over : τ → Nat → τ) (times : List τ) (s : Stats τ) : Prop where
  best : s.best ∈ times ∧ ∀ t ∈ times, s.best ≤ t
  worst : s.worst ∈ times ∧ ∀ t ∈ times, t ≤ s.worst
  median : s.median ∈ times ∧ times.countP (· < s.median) ≤ times.length / 2 ∧
    times.length / 2 < times.countP (· ≤ s.median)
  mean : s.mean = over times.sum times.length

end Gsb
