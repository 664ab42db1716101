import Verif.Par.Pss
/-
C24: `parallel_stable_sort` is a stable sort under every schedule.
-/
namespace Gsb
variable {α : Type}

/-- **C24.**  For every array (of any element type, at any offset), every comparator that is a strict weak order
(`leOf lt` is the induced "not greater"), every pair of cut-offs for which the recursion makes progress, and whether or
not a temporary buffer is obtained: under every schedule of its tasks `parallel_stable_sort` runs without a data race
or an undefined access, ends, leaves *the* stable sort of the array — a permutation, sorted, equal elements in input
order — in the array, and leaves the rest of the memory (`F`) as it was, the temporary buffer released. -/
theorem C24_parallel_stable_sort (lt : α → α → Bool) (hlt : TotalPre (leOf lt)) (cut mcut : Nat) (hcut : 1 ≤ cut)
    (hmcut : 2 ≤ mcut) (buffer : Bool) (b o : Nat) (L : List α) :
    ∃ L', IsStableSort (leOf lt) L L' ∧ ∀ F : Mem α, Disj (arr b o (Buf.ofList L)) F → FiniteMem F →
      AllSchedules (parallelStableSortP lt cut mcut buffer b o L.length)
        ((arr b o (Buf.ofList L)).union F) ((arr b o (Buf.ofList L')).union F) := by
  refine ⟨L.mergeSort (leOf lt), isStableSort_mergeSort hlt L, fun F hd hf => ?_⟩
  refine allSchedules_of_safe hd ?_ (safe_parallelStableSort hlt cut mcut hcut hmcut buffer b o L)
  obtain ⟨B, h⟩ := hf
  refine ⟨max B (b + 1), fun a i ha => ?_⟩
  rw [Mem.union_none]
  refine ⟨?_, h a i (by omega)⟩
  have := not_congr (arr_ofList_own b o L (a, i))
  simp only [ne_eq, Classical.not_not] at this
  rw [this]
  unfold rng
  simp only
  omega

/-- **C24** with the cut-offs of the code. -/
theorem C24_cutoffs (lt : α → α → Bool) (hlt : TotalPre (leOf lt)) (buffer : Bool) (b o : Nat) (L : List α) :
    ∃ L', IsStableSort (leOf lt) L L' ∧ ∀ F : Mem α, Disj (arr b o (Buf.ofList L)) F → FiniteMem F →
      AllSchedules (parallelStableSortP lt 500 2000 buffer b o L.length)
        ((arr b o (Buf.ofList L)).union F) ((arr b o (Buf.ofList L')).union F) :=
  C24_parallel_stable_sort lt hlt 500 2000 (by omega) (by omega) buffer b o L

/-- What the rest of the model takes `parallel_stable_sort` to return is that stable sort: there is only one. -/
theorem C24_unique (lt : α → α → Bool) (hlt : TotalPre (leOf lt)) (L L' : List α) (h : IsStableSort (leOf lt) L L') :
    L' = L.mergeSort (leOf lt) :=
  isStableSort_unique hlt h (isStableSort_mergeSort hlt L)

/-! The hypotheses are met, and the tasks are there: sorting three pairs by their first component only, with the
smallest cut-offs. -/

/-- Compare first components. -/
def ltFst : Nat × Nat → Nat × Nat → Bool := fun a b => decide (a.1 < b.1)

theorem ltFst_pre : TotalPre (leOf ltFst) :=
  ⟨fun a b c h1 h2 => by simp only [leOf, ltFst, Bool.not_eq_true', decide_eq_false_iff_not] at *; omega,
   fun a b => by
    simp only [leOf, ltFst, Bool.or_eq_true, Bool.not_eq_true', decide_eq_false_iff_not]; omega⟩

example : ∃ L', IsStableSort (leOf ltFst) [(2, 0), (1, 1), (2, 2), (1, 3)] L' ∧ L' = [(1, 1), (1, 3), (2, 0), (2, 2)] ∧
    AllSchedules (parallelStableSortP ltFst 1 2 true 7 5 4)
      ((arr 7 5 (Buf.ofList [(2, 0), (1, 1), (2, 2), (1, 3)])).union (fun _ => none))
      ((arr 7 5 (Buf.ofList L')).union (fun _ => none)) := by
  obtain ⟨L', h1, h2⟩ := C24_parallel_stable_sort ltFst ltFst_pre 1 2 (by omega) (by omega) true 7 5 [(2, 0), (1, 1), (2, 2), (1, 3)]
  refine ⟨L', h1, ?_, h2 _ (fun l => Or.inr rfl) ⟨0, fun _ _ _ => rfl⟩⟩
  rw [C24_unique _ ltFst_pre _ _ h1]
  simp [List.mergeSort, List.MergeSort.Internal.splitInTwo, leOf, ltFst]

/-- Above the cut-off the sort does spawn tasks. -/
example : ∃ t p k, sortAuxP ltFst 1 2 7 8 5 5 4 0 2 = Prog.fork t p k := ⟨_, _, _, by simp [sortAuxP]; exact ⟨rfl, rfl, rfl⟩⟩

end Gsb
