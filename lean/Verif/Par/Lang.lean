import Verif.Basic.C
/-
Shared-memory programs with structured fork/join parallelism, run one memory access at a time in any order the
scheduler likes.  This is the semantics against which the schedule theorems (C16, C17, C18, C24) are stated.

What it covers of OpenMP as the library uses it:
* `#pragma omp parallel for` — every iteration is a task of its own (`Prog.parFor`), all of them joined at the end
  of the loop (the implicit barrier).  Distributing the iterations over threads, in chunks, statically or
  dynamically, only removes interleavings.
* `#pragma omp task … #pragma omp taskwait` — `Prog.fork task parent k`: the task runs concurrently with what the
  parent does up to the `taskwait`; `k` is what follows the `taskwait`.
* `new T[n]()` / `delete []` — `alloc` may return any block none of whose cells is in use.
* `x`, the matrix arrays and the local variables of a thread are not part of the shared memory: no kernel writes to
  the first two (they are `const` in the code), and locals are private.
Accesses are sequentially consistent; by the data-race-freedom guarantee of C++ (and OpenMP) that is the behaviour of
the compiled program as soon as there is no race, which is part of every theorem.
-/
namespace Gsb
variable {T : Type}

/-- A memory cell: an allocated array and an index into it. -/
abbrev Loc := Nat × Nat

/-- Shared memory: `none` — not allocated; `some none` — allocated, indeterminate value; `some (some v)` — holds `v`. -/
abbrev Mem (T : Type) := Loc → Option (Option T)

/-- Programs.  `ret r` hands an integer (a pointer, in `spmv_chunk`) to what follows. -/
inductive Prog (T : Type) where
  | ret (r : Nat)
  | fail (e : Err)
  | load (l : Loc) (k : T → Prog T)
  | store (l : Loc) (v : Option T) (k : Prog T)
  | alloc (n : Nat) (v : Option T) (k : Nat → Prog T)
  | free (b n : Nat) (k : Prog T)
  | fork (task parent : Prog T) (k : Nat → Prog T)

namespace Prog

/-- `p ; q`. -/
def seq : Prog T → (Nat → Prog T) → Prog T
  | ret r, q => q r
  | fail e, _ => fail e
  | load l k, q => load l (fun v => (k v).seq q)
  | store l v k, q => store l v (k.seq q)
  | alloc n v k, q => alloc n v (fun b => (k b).seq q)
  | free b n k, q => free b n (k.seq q)
  | fork p p' k, q => fork p p' (fun r => (k r).seq q)

/-- Reading private or immutable data, which may fail. -/
def read {α : Type} (c : C α) (k : α → Prog T) : Prog T :=
  match c with
  | .ok a => k a
  | .error e => fail e

/-- `for (i = lo; i < lo + n; i++) f(i);` -/
def seqN (f : Nat → Prog T) : Nat → Nat → Prog T
  | 0, _ => ret 0
  | n + 1, i => (f i).seq (fun _ => seqN f n (i + 1))

/-- `for (i = lo; i < hi; i++) f(i);` -/
def seqFor (lo hi : Nat) (f : Nat → Prog T) : Prog T := seqN f (hi - lo) lo

/-- All of `f(lo), …, f(lo+n-1)` concurrently. -/
def parN (f : Nat → Prog T) : Nat → Nat → Prog T
  | 0, _ => ret 0
  | n + 1, i => fork (f i) (parN f n (i + 1)) (fun _ => ret 0)

/-- `#pragma omp parallel for`: `for (i = lo; i < hi; i++) f(i);` -/
def parFor (lo hi : Nat) (f : Nat → Prog T) : Prog T := parN f (hi - lo) lo

end Prog

/-- One step of some thread: one memory access, one allocation or release, or one join. -/
inductive Step : Prog T × Mem T → Prog T × Mem T → Prop where
  | load {l k m v} : m l = some (some v) → Step (.load l k, m) (k v, m)
  | store {l v k} {m : Mem T} : m l ≠ none → Step (.store l v k, m) (k, fun l' => if l' = l then some v else m l')
  | alloc {n v k} {m : Mem T} (b : Nat) : (∀ i, m (b, i) = none) →
      Step (.alloc n v k, m) (k b, fun l => if l.1 = b ∧ l.2 < n then some v else m l)
  | free {b n k} {m : Mem T} : (∀ i, i < n → m (b, i) ≠ none) →
      Step (.free b n k, m) (k, fun l => if l.1 = b ∧ l.2 < n then none else m l)
  | left {p p' q k m m'} : Step (p, m) (p', m') → Step (.fork p q k, m) (.fork p' q k, m')
  | right {p q q' k m m'} : Step (q, m) (q', m') → Step (.fork p q k, m) (.fork p q' k, m')
  | join {r r' k m} : Step (.fork (.ret r) (.ret r') k, m) (k r', m)

/-- Any number of steps. -/
inductive Reach : Prog T × Mem T → Prog T × Mem T → Prop where
  | refl {s} : Reach s s
  | tail {s t u} : Reach s t → Step t u → Reach s u

/-- Some thread is about to do something undefined: read an unallocated or indeterminate cell, write or release a
cell that is not allocated, or (`fail`) go wrong on its own. -/
inductive Fault : Prog T → Mem T → Prop where
  | fail {e m} : Fault (.fail e) m
  | load {l k} {m : Mem T} : (∀ v, m l ≠ some (some v)) → Fault (.load l k) m
  | store {l v k} {m : Mem T} : m l = none → Fault (.store l v k) m
  | free {b n k} {m : Mem T} {i : Nat} : i < n → m (b, i) = none → Fault (.free b n k) m
  | left {p q k m} : Fault p m → Fault (.fork p q k) m
  | right {p q k m} : Fault q m → Fault (.fork p q k) m

/-- Accesses to memory that already exists. -/
inductive Action where
  | read (l : Loc)
  | write (l : Loc)
  | release (b n : Nat)

/-- The cells an action accesses. -/
def Action.touches : Action → Loc → Prop
  | .read l, l' => l' = l
  | .write l, l' => l' = l
  | .release b n, l' => l'.1 = b ∧ l'.2 < n

/-- Both access a common cell and at least one is not a read. -/
def Action.conflict (a b : Action) : Prop :=
  (∃ l, a.touches l ∧ b.touches l) ∧ ¬ ((∃ l, a = .read l) ∧ (∃ l, b = .read l))

/-- The accesses some thread of the program may make next. -/
inductive Next : Prog T → Action → Prop where
  | load {l k} : Next (.load l k) (.read l)
  | store {l v k} : Next (.store l v k) (.write l)
  | free {b n k} : Next (.free b n k) (.release b n)
  | left {p q k a} : Next p a → Next (.fork p q k) a
  | right {p q k a} : Next q a → Next (.fork p q k) a

/-- A data race: two concurrent threads are both about to make conflicting accesses. -/
inductive Race : Prog T → Prop where
  | here {p q k a b} : Next p a → Next q b → a.conflict b → Race (.fork p q k)
  | left {p q k} : Race p → Race (.fork p q k)
  | right {p q k} : Race q → Race (.fork p q k)

/-- Only finitely many arrays are allocated. -/
def FiniteMem (m : Mem T) : Prop := ∃ B, ∀ b i, B ≤ b → m (b, i) = none

/-- **What the schedule theorems conclude.**  Started on memory `m`, whatever the scheduler and the allocator do:
no data race and nothing undefined ever happens, there is no infinite run, a run never gets stuck before it has
finished, and when it has finished the memory is `m'`. -/
structure AllSchedules (p : Prog T) (m m' : Mem T) : Prop where
  noRace : ∀ s, Reach (p, m) s → ¬ Race s.1
  noFault : ∀ s, Reach (p, m) s → ¬ Fault s.1 s.2
  result : ∀ r f, Reach (p, m) (.ret r, f) → f = m'
  progress : ∀ s, Reach (p, m) s → (∃ r, s.1 = .ret r) ∨ ∃ s', Step s s'
  terminates : Acc (fun s' s : Prog T × Mem T => Step s s') (p, m)

/-- The array `b` with contents `y`, from its index `o` on, and nothing else. -/
def arr (b o : Nat) (y : Buf T) : Mem T := fun l =>
  if l.1 = b ∧ o ≤ l.2 ∧ l.2 < o + y.len then some (y.dat (l.2 - o)) else none

/-- No cell is in both. -/
def Disj (m m' : Mem T) : Prop := ∀ l, m l = none ∨ m' l = none

/-- Both together. -/
def Mem.union (m m' : Mem T) : Mem T := fun l =>
  match m l with
  | some c => some c
  | none => m' l

end Gsb
