import Verif.Model.BlockUtil
import Verif.Model.Bits
import Verif.Par.Lang
/-
/repo/include/permute.h and /repo/include/expand.h.  Each function is given twice: as the serial loop, and as the
program with every iteration of the `omp parallel for` a task of its own.
-/
namespace Gsb
variable {T : Type}

/-- `invert_permutation(p, size)` (permute.h:8-19), serial. -/
def invertPermutation (p : Buf Nat) (size : Nat) : C (Buf Nat) :=
  forLoop 0 size (Buf.uninit size) fun k pinv => do
    let v ← p.get k
    pinv.put v k

/-- The loop of `invert_permutation` (permute.h:13-16), parallel; `b` is the array just allocated. -/
def invertPermutationP (p : Buf Nat) (size b : Nat) : Prog Nat :=
  Prog.parFor 0 size fun k => Prog.read (p.get k) fun v => .store (b, v) (some k) (.ret 0)

/-- An array of which each element is replaced by a function of itself: the shape of `permute_indeces`
and `expand_indeces`.  An element is one memory cell: the fields of an element
are accessed by its own iteration only. -/
def mapInPlaceP {α : Type} (f : α → C α) (b n : Nat) : Prog α :=
  Prog.parFor 0 n fun i => .load (b, i) fun v => Prog.read (f v) fun v' => .store (b, i) (some v') (.ret 0)

/-- `permutation[indeces[i]]` (permute.h:30). -/
def permuteOne (perm : Buf Nat) (i : Nat) : C Nat := perm.get i

/-- `permute_indeces(indeces, permutation, size)` (permute.h:25-32), serial. -/
def permuteIndeces (perm : Buf Nat) (ind : List Nat) : C (List Nat) := ind.mapM (permuteOne perm)

/-- The loop of `permute_indeces` (permute.h:28-31). -/
def permuteIndecesP (perm : Buf Nat) (b n : Nat) : Prog Nat := mapInPlaceP (permuteOne perm) b n

/-- Body of the matrix version (permute.h:39-40), for `Triplet`. -/
def permuteTriplet (perm : Buf Nat) (e : Triplet T) : C (Triplet T) := do
  let r ← perm.get e.row
  let c ← perm.get e.col
  .ok { e with row := r, col := c }

/-- Body of the matrix version (permute.h:39-40), for `Element`. -/
def permuteElement (perm : Buf Nat) (e : Element T) : C (Element T) := do
  let r ← perm.get e.row
  let c ← perm.get e.col
  .ok { e with row := r, col := c }

/-- `permute_indeces(matrix, nnz, permutation)` (permute.h:34-42) on triplets, serial. -/
def permuteTriplets (perm : Buf Nat) (es : List (Triplet T)) : C (List (Triplet T)) := es.mapM (permuteTriplet perm)

/-- The same on elements. -/
def permuteElements (perm : Buf Nat) (es : List (Element T)) : C (List (Element T)) := es.mapM (permuteElement perm)

/-- The loop of the matrix version (permute.h:37-41), parallel. -/
def permuteTripletsP (perm : Buf Nat) (b n : Nat) : Prog (Triplet T) := mapInPlaceP (permuteTriplet perm) b n

/-- `expand_block_size` (expand.h:16-26). -/
def expandBlockSize (M : Nat) (sizes : List Nat) : Nat :=
  nextPowerOfTwo (sizes.foldl (fun mx s => if mx < s then s else mx) 0) % M

/-- `expand_index` (expand.h:32-42). -/
def expandIndex (M : Nat) (off : List Nat) (blocks blockSize index : Nat) : C Nat := do
  let b ← indexToBlockindex M off blocks index
  let o ← rd off b
  .ok (addM M (subM M index o) (mulM M b blockSize))

/-- `expand_indeces(indeces, size, block_size, blocks)` (expand.h:44-61), serial. -/
def expandIndeces (M : Nat) (sizes : List Nat) (ind : List Nat) : C (Nat × List Nat) := do
  let new := expandBlockSize M sizes
  let off := sizeToOffset M sizes
  let ind ← ind.mapM (expandIndex M off sizes.length new)
  .ok (new, ind)

/-- Body of the `Element` version (expand.h:70-76). -/
def expandElement (M : Nat) (off : List Nat) (blocks new : Nat) (e : Element T) : C (Element T) := do
  let br ← cdiv e.block blocks
  let bc ← cmod e.block blocks
  let ro ← rd off br
  cassert (decide (ro ≤ mulM M br new))
  let co ← rd off bc
  cassert (decide (co ≤ mulM M bc new))
  .ok { e with row := addM M (subM M (mulM M br new) ro) e.row, col := addM M (subM M (mulM M bc new) co) e.col }

/-- `expand_indeces(elements, size, block_sizes, block_offsets, blocks)` (expand.h:63-80), serial. -/
def expandElements (M : Nat) (sizes off : List Nat) (es : List (Element T)) : C (Nat × List (Element T)) := do
  let new := expandBlockSize M sizes
  let es ← es.mapM (expandElement M off sizes.length new)
  .ok (new, es)

/-- The loop of the first `expand_indeces` (expand.h:54-57), parallel. -/
def expandIndecesP (M : Nat) (off : List Nat) (blocks new b n : Nat) : Prog Nat := mapInPlaceP (expandIndex M off blocks new) b n

/-- The loop of the second `expand_indeces` (expand.h:68-77), parallel. -/
def expandElementsP (M : Nat) (off : List Nat) (blocks new b n : Nat) : Prog (Element T) :=
  mapInPlaceP (expandElement M off blocks new) b n

/-- What `expanded` does to the matrix it has read (src/tools/expanded.cpp:38-72): offsets, block ids, sort by columns,
expand; returns the new dimension and the elements. -/
def expandedTool (M : Nat) (sizes : List Nat) (es : List (Element T)) : C (Nat × List (Element T)) := do
  let off := sizeToOffset M sizes
  let es ← calculateBlockId M es off sizes.length off sizes.length
  let es := sortTriplets es false
  let r ← expandElements M sizes off es
  .ok (mulM M r.1 sizes.length, r.2)

end Gsb
