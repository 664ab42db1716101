/-
Specification: what a sparse matrix, given as a list of (row, column, value) entries, means.
Nothing in this file refers to the code.
-/
import Mathlib.Data.Matrix.Mul

namespace Gsb

/-- One entry of a sparse matrix. -/
structure Ent (T : Type) where
  row : Nat
  col : Nat
  val : T
  deriving DecidableEq, Repr

/-- All entries lie in a `rows × cols` matrix. -/
def InRange {T : Type} (es : List (Ent T)) (rows cols : Nat) : Prop :=
  ∀ e ∈ es, e.row < rows ∧ e.col < cols

instance {T : Type} (es : List (Ent T)) (rows cols : Nat) : Decidable (InRange es rows cols) := by
  unfold InRange; infer_instance

/-- The entries of row `i`, in the order given. -/
def rowEntries {T : Type} (es : List (Ent T)) (i : Nat) : List (Ent T) :=
  es.filter (fun e => e.row == i)

/-- The entries of row `i` by increasing column; entries of equal column keep their order. -/
def rowByColumn {T : Type} (es : List (Ent T)) (i : Nat) : List (Ent T) :=
  (rowEntries es i).mergeSort (fun a b => decide (a.col ≤ b.col))

section
variable {T : Type} [Add T] [Mul T]

/-- Accumulate the products of the given entries on `acc`, one after the other:
`(((acc + v₁*x[c₁]) + v₂*x[c₂]) + …)`.  No law of `+` or `*` is used. -/
def accumulate (x : Nat → T) (acc : T) (l : List (Ent T)) : T :=
  l.foldl (fun a e => a + e.val * x e.col) acc

/-- The exact result of `y += A x`: each row's products are added to `y[i]` by increasing
column, ties in the order given.  Fixes every rounding of a floating point run. -/
def spmvExact (es : List (Ent T)) (x y : Nat → T) : Nat → T :=
  fun i => accumulate x (y i) (rowByColumn es i)

/-- The result of `y += A x` when each row's products are added in the order given. -/
def spmvInOrder (es : List (Ent T)) (x y : Nat → T) : Nat → T :=
  fun i => accumulate x (y i) (rowEntries es i)

end

/-- The mathematical result `y + A x` in an additive monoid. -/
def spmvSum {T : Type} [AddMonoid T] [Mul T] (es : List (Ent T)) (x y : Nat → T) : Nat → T :=
  fun i => y i + ((rowEntries es i).map (fun e => e.val * x e.col)).sum

/-- The `m × n` matrix the entries denote: duplicates add up. -/
def toMatrix {T : Type} [AddMonoid T] (es : List (Ent T)) (m n : Nat) : Matrix (Fin m) (Fin n) T :=
  fun i j => ((es.filter (fun e => e.row == i.1 && e.col == j.1)).map (·.val)).sum

theorem accumulate_eq_sum {T : Type} [AddMonoid T] [Mul T] (x : Nat → T) (acc : T) (l : List (Ent T)) :
    accumulate x acc l = acc + (l.map (fun e => e.val * x e.col)).sum := by
  unfold accumulate
  induction l generalizing acc with
  | nil => simp
  | cons e l ih => simp [ih, add_assoc]

/-- In an additive monoid the two readings of "in the order given" agree. -/
theorem spmvInOrder_eq_sum {T : Type} [AddMonoid T] [Mul T] (es : List (Ent T)) (x y : Nat → T) :
    spmvInOrder es x y = spmvSum es x y := by
  funext i; exact accumulate_eq_sum x (y i) _

/-- In a commutative monoid the exact result is the mathematical one. -/
theorem spmvExact_eq_sum {T : Type} [AddCommMonoid T] [Mul T] (es : List (Ent T)) (x y : Nat → T) :
    spmvExact es x y = spmvSum es x y := by
  funext i
  unfold spmvExact spmvSum
  rw [accumulate_eq_sum]
  congr 1
  exact List.Perm.sum_eq ((List.mergeSort_perm _ _).map _)

/-- In a commutative monoid the order of the entries does not matter. -/
theorem spmvSum_perm {T : Type} [AddCommMonoid T] [Mul T] {es es' : List (Ent T)} (h : es.Perm es')
    (x y : Nat → T) : spmvSum es x y = spmvSum es' x y := by
  funext i
  unfold spmvSum rowEntries
  congr 1
  exact List.Perm.sum_eq ((h.filter _).map _)

private theorem sum_col_split {T : Type} [NonUnitalNonAssocSemiring T] (n : Nat) (x : Nat → T)
    (l : List (Ent T)) (h : ∀ e ∈ l, e.col < n) :
    (l.map (fun e => e.val * x e.col)).sum =
      ∑ j : Fin n, ((l.filter (fun e => e.col == j.1)).map (·.val)).sum * x j.1 := by
  induction l with
  | nil => simp
  | cons e l ih =>
    have hl : ∀ e ∈ l, e.col < n := fun e he => h e (List.mem_cons_of_mem _ he)
    have hc : e.col < n := h e (List.mem_cons_self)
    rw [List.map_cons, List.sum_cons, ih hl]
    have : ∀ j : Fin n,
        (((e :: l).filter (fun e => e.col == j.1)).map (·.val)).sum * x j.1 =
        (if j = ⟨e.col, hc⟩ then e.val * x e.col else 0) +
        ((l.filter (fun e => e.col == j.1)).map (·.val)).sum * x j.1 := by
      intro j
      by_cases hj : j = ⟨e.col, hc⟩
      · subst hj; simp [add_mul]
      · have : ¬ e.col = j.1 := fun hh => hj (Fin.ext hh.symm)
        simp [hj, this]
    rw [Finset.sum_congr rfl (fun j _ => this j), Finset.sum_add_distrib]
    simp

/-- In a semiring the mathematical result is `y + A.mulVec x` for the matrix the entries denote. -/
theorem spmvSum_eq_mulVec {T : Type} [NonUnitalNonAssocSemiring T] (es : List (Ent T)) (m n : Nat)
    (h : InRange es m n) (x y : Nat → T) (i : Fin m) :
    spmvSum es x y i.1 = y i.1 + (toMatrix es m n).mulVec (fun j => x j.1) i := by
  unfold spmvSum rowEntries toMatrix Matrix.mulVec dotProduct
  congr 1
  rw [sum_col_split n x _ (fun e he => (h e (List.mem_of_mem_filter he)).2)]
  refine Finset.sum_congr rfl (fun j _ => ?_)
  rw [List.filter_filter]
  congr 3
  congr 1
  funext e
  rw [Bool.and_comm]

end Gsb
