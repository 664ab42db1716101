import Verif.Basic.C
import Verif.Spec
import Verif.Spec.Sort
/-
Models of include/typedefs.h and of the sorting helpers of include/utils.h.
-/
namespace Gsb

/-- `Triplet<T,IT>` — include/typedefs.h:13-19.  Same fields as an entry of the specification. -/
abbrev Triplet (T : Type) := Ent T

/-- `Element<T,IT>` — include/typedefs.h:21-28.  Index fields are values `< M` of the index type;
theorems say so where it matters. -/
structure Element (T : Type) where
  row : Nat
  col : Nat
  val : T
  block : Nat
  deriving DecidableEq, Repr

/-- The template parameter `NONZERO`: "must have a 'row', 'col' and 'val' field"
(include/matrix/crcsr.h:30-33, include/matrix/dense.h:92-95). -/
class NZ (ε : Type) (T : outParam Type) where
  toEnt : ε → Ent T

instance (T : Type) : NZ (Ent T) T := ⟨id⟩
instance (T : Type) : NZ (Element T) T := ⟨fun e => ⟨e.row, e.col, e.val⟩⟩

/-- The entries an input array denotes. -/
def ents {ε T : Type} [NZ ε T] (es : List ε) : List (Ent T) := es.map NZ.toEnt

/-- `pss::parallel_stable_sort(array, array+size, compare)` seen as a function on the array.
That the implementation in dep/pss computes this for every schedule is proved in
`Verif.Props.ParSort`, where it is modelled in full. -/
def pssSort {α : Type} (lt : α → α → Bool) (l : List α) : List α := l.mergeSort (leOf lt)

/-- `compare_row` — include/utils.h:139-143. -/
def ltRowMajor {ε T : Type} [NZ ε T] (a b : ε) : Bool :=
  let a := NZ.toEnt a; let b := NZ.toEnt b
  decide (a.row < b.row) || (a.row == b.row && decide (a.col < b.col))

/-- `compare_col` — include/utils.h:146-150. -/
def ltColMajor {ε T : Type} [NZ ε T] (a b : ε) : Bool :=
  let a := NZ.toEnt a; let b := NZ.toEnt b
  decide (a.col < b.col) || (a.col == b.col && decide (a.row < b.row))

/-- `sort_triplets(array, size, row_major)` — include/utils.h:134-158, and the default
`row_major = true` overload at 163-168. -/
def sortTriplets {ε T : Type} [NZ ε T] (es : List ε) (rowMajor : Bool := true) : List ε :=
  if rowMajor then pssSort ltRowMajor es else pssSort ltColMajor es

/-- The comparator of `sort_elements_blocks` — include/utils.h:272-277. -/
def ltBlocks {T : Type} (a b : Element T) : Bool :=
  decide (a.block < b.block) ||
  (a.block == b.block && decide (a.row < b.row)) ||
  (a.block == b.block && a.row == b.row && decide (a.col < b.col))

/-- `sort_elements_blocks` — include/utils.h:269-280. -/
def sortElementsBlocks {T : Type} (es : List (Element T)) : List (Element T) :=
  pssSort ltBlocks es

/-- The comparator of `sort_triplets_widerows` — include/utils.h:290-298.  `width = 0` divides by
zero as soon as two elements are compared; callers are modelled with an explicit check. -/
def ltWide {ε T : Type} [NZ ε T] (width : Nat) (a b : ε) : Bool :=
  let a := NZ.toEnt a; let b := NZ.toEnt b
  decide (a.row / width < b.row / width) ||
  (a.row / width == b.row / width && decide (a.col < b.col)) ||
  (a.row / width == b.row / width && a.col == b.col && decide (a.row < b.row))

/-- `sort_triplets_widerows` — include/utils.h:286-301. -/
def sortTripletsWide {ε T : Type} [NZ ε T] (width : Nat) (es : List ε) : List ε :=
  pssSort (ltWide width) es

end Gsb
