import Verif.Cases.Blocks
import Verif.Props.Order
/-
Concrete cases for C83: the example matrices written in another order.
-/
namespace Gsb

/-- `exE` backwards, except that the two entries at (1,1) keep their order. -/
def exShuffled : List (Element Int) :=
  [⟨0, 2, 1, 9⟩, ⟨1, 1, 5, 9⟩, ⟨3, 2, 0, 9⟩, ⟨1, 1, -3, 9⟩, ⟨1, 2, 7, 9⟩, ⟨3, 0, 2, 9⟩]

theorem exShuffled_same : SamePlaces (ents exE) (ents exShuffled) := by
  refine ⟨by decide, ?_⟩
  intro i j
  simp only [ents, exE, exA, exShuffled, List.map_cons, List.map_nil, NZ.toEnt, List.filter_cons, List.filter_nil]
  by_cases h3 : (3 : Nat) = i <;> by_cases h1 : (1 : Nat) = i <;> by_cases h0 : (0 : Nat) = i <;>
    by_cases c0 : (0 : Nat) = j <;> by_cases c1 : (1 : Nat) = j <;> by_cases c2 : (2 : Nat) = j <;> simp_all <;> omega

example := C83_distinct (L := exB) (L' := exB.reverse) (by decide) (by decide)
example := C83_csr (2 ^ 32) 4 3 exE exShuffled exShuffled_same
example := C83_csr2 (2 ^ 32) 4 3 exE exShuffled exShuffled_same
example := C83_cswr (2 ^ 32) (2 ^ 8) 4 3 2 exE exShuffled exShuffled_same
example := C83_csbr (2 ^ 32) 8 4 3 exE exShuffled _ _ _ _ exR exC (by decide) (by decide) (by decide) (by decide) exShuffled_same
example := C83_csbr2 (2 ^ 32) 4 3 exE exShuffled _ _ _ _ exR exC (by decide) (by decide) (by decide) (by decide) exShuffled_same
example := C83_cgbr (2 ^ 32) 8 4 3 exE exShuffled _ _ _ _ exR exC (by decide) (by decide) (by decide) (by decide) exShuffled_same
  (2 ^ 16) exChoose (fun _ _ _ => true)
example := C83_cgbr2 (2 ^ 32) 8 4 3 exE exShuffled _ _ _ _ exR exC (by decide) (by decide) (by decide) (by decide) exShuffled_same
  (factoryDefault (2 ^ 32) (2 ^ 16) fun _ _ _ => .csr)
example := C83_const (2 ^ 32) 8 4 3 2 3 exE exShuffled (by decide) (by decide) (by decide) (by decide) (by decide) (by decide)
  (by decide) (by decide) exShuffled_same (2 ^ 16) exChoose (fun _ _ _ => true) (fun _ _ _ => .csr)
example := C83_csbr3 (2 ^ 32) (2 ^ 16) 4 3 2 exE exShuffled (by decide) (by decide) (by decide) (by decide) (by decide)
  exShuffled_same
example := C83_dense (2 ^ 32) 4 3 exE exShuffled (by decide) (by decide) exShuffled_same
example := C83_coo (2 ^ 32) (2 ^ 16) (by decide) exE exShuffled exShuffled_same (by decide)

end Gsb
