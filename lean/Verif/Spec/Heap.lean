import Mathlib.Data.Multiset.Filter
import Mathlib.Data.Multiset.UnionInter
/-
Specification of memory management: which allocations are live, and what it means that a computation
releases what it allocates.
-/
namespace Gsb

/-- How memory was obtained, and so how it must be given back: `new T[n]` / `delete []`, `new T` /
`delete`, `malloc` or `calloc` / `free`. -/
inductive Kind where
  | newArray
  | newObject
  | malloc
  deriving DecidableEq, Repr

/-- What a release can do wrong: the address is not that of a live allocation (never allocated, or
released before), or it was obtained in another way. -/
inductive HeapErr where
  | notLive
  | mismatch
  deriving DecidableEq, Repr

/-- The live allocations, and an address above all of them. -/
structure Heap where
  next : Nat
  live : Multiset (Nat × Kind)

/-- A computation that allocates and releases. -/
abbrev HeapM (α : Type) := StateT Heap (Except HeapErr) α

/-- Allocate: a fresh address. -/
def acquire (k : Kind) : HeapM Nat := fun h => .ok (h.next, ⟨h.next + 1, (h.next, k) ::ₘ h.live⟩)

/-- Release.  `strict`: the allocators are different ones, so that giving memory back to the wrong one
is an error; otherwise only the address counts. -/
def dispose (strict : Bool) (k : Kind) (p : Nat) : HeapM Unit := fun h =>
  if (p, k) ∈ h.live then .ok ((), ⟨h.next, h.live.erase (p, k)⟩)
  else if p ∈ h.live.map Prod.fst then
    if strict then .error .mismatch else .ok ((), ⟨h.next, h.live.filter (fun a => a.1 ≠ p)⟩)
  else .error .notLive

/-- A heap that acquiring and releasing lead to: one allocation per address, all below `next`. -/
structure Heap.Ok (h : Heap) : Prop where
  below : ∀ a ∈ h.live, a.1 < h.next
  once : (h.live.map Prod.fst).Nodup

/-- The computation releases exactly what it allocates, each allocation once and in the right way: it
never fails, and afterwards the live allocations are those from before. -/
def Balanced {α : Type} (m : HeapM α) : Prop :=
  ∀ h : Heap, h.Ok → ∃ a h', m h = .ok (a, h') ∧ h'.live = h.live

/-- The computation does not fail but leaves `n` allocations, made by `new []`, that were not there before. -/
def LeaksArrays {α : Type} (n : Nat) (m : HeapM α) : Prop :=
  ∀ h : Heap, h.Ok → ∃ (a : α) (h' : Heap) (ps : List Nat), m h = .ok (a, h') ∧ ps.length = n ∧ ps.Nodup ∧ (∀ p ∈ ps, p ∉ h.live.map Prod.fst) ∧
    h'.live = (ps.map (fun p => (p, Kind.newArray)) : Multiset (Nat × Kind)) + h.live

/-- The computation fails in the way `e`, whatever the heap. -/
def FailsWith {α : Type} (e : HeapErr) (m : HeapM α) : Prop := ∀ h : Heap, h.Ok → m h = .error e

end Gsb
