import Verif.Par.Lang
import Verif.Spec.Sort
/-
`pss::parallel_stable_sort`: /repo/dep/pss/parallel_stable_sort.h and /repo/dep/pss/pss_common.h.

`lt` is the comparator object.  The array being sorted and the temporary buffer are arrays of the shared memory, and
every element access is a step of its own.

Simplifications:
* the two cut-offs (`MERGE_CUT_OFF` = 2000, `SORT_CUT_OFF` = 500) are parameters;
* a move (`*zs = std::move(*ys)`) leaves an *indeterminate* value behind, which is the least a move guarantees; for the
  trivially copyable element types of the library the old value stays there, and nothing reads it;
* constructing an object without a value (`new(&*zs) T`) and destroying one (`(*ze).~T()`) both leave an indeterminate
  value in the cell; the distinction between raw storage and a default-initialised object is not modelled;
* `std::stable_sort` (trusted) reads the range and writes back its stable sort;
* the sizes are `Nat`; iterators are an array and an index.
-/
namespace Gsb
open Prog
variable {α : Type}

/-- `*zs = std::move(*xs)` (pss_common.h:58, 62; `std::move(ys, ye, zs)` at 70; 85). -/
def moveOneP (s i d j : Nat) (k : Prog α) : Prog α :=
  load (s, i) fun v => store (d, j) (some v) (store (s, i) none k)

/-- `std::move(ys, ye, zs)` (pss_common.h:70), `n = ye - ys`. -/
def moveP (s o d z : Nat) : Nat → Prog α
  | 0 => ret 0
  | n + 1 => moveOneP s o d z (moveP s (o + 1) d (z + 1) n)

/-- `serial_destroy` (pss_common.h:40-47): from the end. -/
def destroyP (s o : Nat) : Nat → Prog α
  | 0 => ret 0
  | n + 1 => store (s, o + n) none (destroyP s o n)

/-- `serial_move_merge` (pss_common.h:51-71): `[xs,xs+nx)` and `[ys,ys+ny)` of `s` to `d` from `zs` on. -/
def serialMergeP (lt : α → α → Bool) (s d : Nat) (xs nx ys ny zs : Nat) : Prog α :=
  match nx, ny with
  | 0, ny => moveP s ys d zs ny
  | nx + 1, 0 => moveP s xs d zs (nx + 1)
  | nx + 1, ny + 1 =>
    load (s, ys) fun y => load (s, xs) fun x =>
      if lt y x then moveOneP s ys d zs (serialMergeP lt s d xs (nx + 1) (ys + 1) ny (zs + 1))
      else moveOneP s xs d zs (serialMergeP lt s d (xs + 1) nx ys (ny + 1) (zs + 1))
termination_by nx + ny

/-- `std::upper_bound` / `std::lower_bound` of libstdc++: halve `[first, first+len)`; `left v e` says whether to go on
in the left half.  `v = *(s, vi)` is read afresh by every comparison.  Returns the index reached. -/
def boundP (left : α → α → Bool) (s vi : Nat) (fuel first len : Nat) : Prog α :=
  match fuel with
  | 0 => fail .budget
  | fuel + 1 =>
    if len = 0 then ret first
    else
      load (s, vi) fun v => load (s, first + len / 2) fun e =>
        if left v e then boundP left s vi fuel first (len / 2)
        else boundP left s vi fuel (first + len / 2 + 1) (len - len / 2 - 1)

/-- `std::upper_bound(xs, xe, *ym, comp)` (parallel_stable_sort.h:60): left if `comp(*ym, *middle)`. -/
def upperBoundP (lt : α → α → Bool) (s vi first len : Nat) : Prog α :=
  boundP (fun v e => lt v e) s vi (len + 1) first len

/-- `std::lower_bound(ys, ye, *xm, comp)` (parallel_stable_sort.h:63): right if `comp(*middle, *xm)`. -/
def lowerBoundP (lt : α → α → Bool) (s vi first len : Nat) : Prog α :=
  boundP (fun v e => !(lt e v)) s vi (len + 1) first len

/-- `parallel_move_merge` (parallel_stable_sort.h:43-78).  One turn of the `while` loop spawns the task for the left
parts and goes on with the right parts, concurrently with the task; the rest of the loop and what follows it is the
recursive call.  All tasks are joined at the `taskwait` at the end.  `fuel` bounds the recursion. -/
def parMergeP (lt : α → α → Bool) (cut : Nat) (destroy : Bool) (s d : Nat) (fuel : Nat) (xs nx ys ny zs : Nat) : Prog α :=
  match fuel with
  | 0 => fail .budget
  | fuel + 1 =>
    if cut < nx + ny then
      if nx < ny then
        let ym := ny / 2
        (upperBoundP lt s (ys + ym) xs nx).seq fun r =>
          let xm := r - xs
          fork (parMergeP lt cut destroy s d fuel xs xm ys ym zs)
            (parMergeP lt cut destroy s d fuel (xs + xm) (nx - xm) (ys + ym) (ny - ym) (zs + (xm + ym))) (fun _ => ret 0)
      else
        let xm := nx / 2
        (lowerBoundP lt s (xs + xm) ys ny).seq fun r =>
          let ym := r - ys
          fork (parMergeP lt cut destroy s d fuel xs xm ys ym zs)
            (parMergeP lt cut destroy s d fuel (xs + xm) (nx - xm) (ys + ym) (ny - ym) (zs + (xm + ym))) (fun _ => ret 0)
    else
      (serialMergeP lt s d xs nx ys ny zs).seq fun _ =>
        if destroy then (destroyP s xs nx).seq fun _ => destroyP s ys ny
        else ret 0

/-- Read a range. -/
def loadAllP (s o : Nat) : Nat → (List α → Prog α) → Prog α
  | 0, k => k []
  | n + 1, k => load (s, o) fun v => loadAllP s (o + 1) n (fun vs => k (v :: vs))

/-- Write a range. -/
def storeAllP (s o : Nat) : List α → Prog α → Prog α
  | [], k => k
  | v :: vs, k => store (s, o) (some v) (storeAllP s (o + 1) vs k)

/-- `std::stable_sort(xs, xe, comp)` (pss_common.h:75; parallel_stable_sort.h:113). -/
def stdStableSortP (lt : α → α → Bool) (s o n : Nat) (k : Prog α) : Prog α :=
  loadAllP s o n fun vs => storeAllP s o (vs.mergeSort (leOf lt)) k

/-- `new(&*zs) T` over a range (pss_common.h:79-81). -/
def constructP (d z : Nat) : Nat → Prog α
  | 0 => ret 0
  | n + 1 => store (d, z) none (constructP d (z + 1) n)

/-- `stable_sort_base_case` (pss_common.h:74-87). -/
def sortBaseP (lt : α → α → Bool) (s d : Nat) (xs n zs : Nat) (inplace : Nat) : Prog α :=
  stdStableSortP lt s xs n <|
    if inplace = 2 then ret 0
    else if inplace ≠ 0 then constructP d zs n
    else moveP s xs d zs n

/-- `parallel_stable_sort_aux` (parallel_stable_sort.h:82-102). -/
def sortAuxP (lt : α → α → Bool) (cut mcut : Nat) (s d : Nat) (fuel : Nat) (xs n zs : Nat) (inplace : Nat) : Prog α :=
  match fuel with
  | 0 => fail .budget
  | fuel + 1 =>
    if n ≤ cut then sortBaseP lt s d xs n zs inplace
    else
      let h := n / 2
      let ninplace := if inplace = 0 then 1 else 0
      fork (sortAuxP lt cut mcut s d fuel xs h zs ninplace)
        (sortAuxP lt cut mcut s d fuel (xs + h) (n - h) (zs + h) ninplace) fun _ =>
        if inplace ≠ 0 then
          parMergeP lt mcut (inplace == 2) d s (n + 1) zs h (zs + h) (n - h) xs
        else
          parMergeP lt mcut false s d (n + 1) xs h (xs + h) (n - h) zs

/-- `parallel_stable_sort(xs, xe, comp)` (parallel_stable_sort.h:106-117) on the `n` elements from index `o` of array
`b`.  `buffer`: whether the temporary buffer could be obtained.  Both branches of the test for being inside a parallel
region run the same code. -/
def parallelStableSortP (lt : α → α → Bool) (cut mcut : Nat) (buffer : Bool) (b o n : Nat) : Prog α :=
  if buffer then
    alloc n none fun z => (sortAuxP lt cut mcut b z (n + 1) o n 0 2).seq fun _ => free z n (ret 0)
  else stdStableSortP lt b o n (ret 0)

end Gsb
