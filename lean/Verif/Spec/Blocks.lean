/-
Specification: partition of an index range into consecutive blocks.
-/
namespace Gsb

/-- `off = [0 = o₀ ≤ o₁ ≤ … ≤ oₙ = total]`: block `b` is the index range `[o_b, o_{b+1})`. -/
structure Partition (off : List Nat) (n total : Nat) : Prop where
  len : off.length = n + 1
  first : off[0]? = some 0
  last : off[n]? = some total
  sorted : off.Pairwise (· ≤ ·)

/-- Index `i` lies in block `b`. -/
def InBlockRange (off : List Nat) (b i : Nat) : Prop :=
  ∃ lo hi, off[b]? = some lo ∧ off[b + 1]? = some hi ∧ lo ≤ i ∧ i < hi

/-- Where the part that contains index `i` begins: the last offset that is not above `i`. -/
def blockStart (off : List Nat) (i : Nat) : Nat := ((off.filter (fun o => decide (o ≤ i))).getLast?).getD 0

/-- Every part of the partition has at most `S` indices. -/
def BlocksAtMost (off : List Nat) (S : Nat) : Prop :=
  ∀ i lo hi, off[i]? = some lo → off[i + 1]? = some hi → hi - lo ≤ S

end Gsb
