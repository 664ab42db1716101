import Verif.Proof.CrCsrMem
import Verif.Props.Other
/-
C06: `Coo_to_CrCsr` run on memory with arbitrary contents.  `C06_crcsr_never_defined` and
`C06_crcsr_zeroed` are in Props/Other.
-/
namespace Gsb
variable {ε T : Type} [NZ ε T]

/-- **C06.** What `Coo_to_CrCsr(A, nonzeros, nnz, nnzrows)` does when the memory it gets for its row
pointers holds `g 0, g 1, …` (any contents).  With a row count below the number of non-empty rows it
writes out of bounds, with a larger one its first assertion fails; with the right one its second
assertion fails unless the stale words sum to 0 modulo the range of the index type, and if they do it
returns a matrix whose `k`-th row pointer is off by `g 0 + … + g k`. -/
theorem C06_crcsr_memory (M nnzrows : Nat) (g : Nat → Nat) (hg : ∀ k, g k < M) (es : List ε) (hne : es ≠ [])
    (hM : es.length + 1 < M) (hN : nnzrows < M) :
    (nnzrows < (nonEmptyRows (ents es)).card →
      (crcsrBuild M (Buf.full (nnzrows + 1) g) es nnzrows : C (CrCsr T × List ε)) = .error .oob) ∧
    ((nonEmptyRows (ents es)).card < nnzrows →
      (crcsrBuild M (Buf.full (nnzrows + 1) g) es nnzrows : C (CrCsr T × List ε)) = .error .assertion) ∧
    (nnzrows = (nonEmptyRows (ents es)).card → (∑ j ∈ Finset.range (nnzrows + 1), g j) % M ≠ 0 →
      (crcsrBuild M (Buf.full (nnzrows + 1) g) es nnzrows : C (CrCsr T × List ε)) = .error .assertion) ∧
    (nnzrows = (nonEmptyRows (ents es)).card → (∑ j ∈ Finset.range (nnzrows + 1), g j) % M = 0 →
      ∃ (A : CrCsr T) (es' : List ε), crcsrBuild M (Buf.full (nnzrows + 1) g) es nnzrows = .ok (A, es') ∧
        es'.Perm es ∧ A.nnzRowsNum = nnzrows ∧
        (∀ k, k ≤ nnzrows → A.rowPtr.get k =
          .ok (((∑ j ∈ Finset.range (k + 1), g j) + entriesInFirstRows (ents es) k) % M)) ∧
        ((∀ k, k ≤ nnzrows → A.rowPtr.get k = .ok (entriesInFirstRows (ents es) k)) ↔ ∀ k, k ≤ nnzrows → g k = 0)) := by
  have hs := sortTriplets_sorted es
  have hp := ents_perm (sortTriplets_perm es true)
  have hc : (runKeys rowOf (sortTriplets es)).length = (nonEmptyRows (ents es)).card := by
    rw [runKeys_card _ hs, nonEmptyRows_perm hp]
  rw [← hc]
  refine ⟨crcsrBuild_small M g es nnzrows hg hM, ?_, ?_, ?_⟩
  · intro h
    rw [crcsrBuild_large M g es nnzrows hg hM hne hN (by omega), if_neg (by omega)]
  · intro h h0
    rw [crcsrBuild_large M g es nnzrows hg hM hne hN (by omega), if_neg (fun h => h0 h.2)]
  · intro h h0
    have hget : ∀ k, k ≤ nnzrows → (crcsrMemOf M g (sortTriplets es) : CrCsr T).rowPtr.get k =
        .ok (((∑ j ∈ Finset.range (k + 1), g j) + entriesInFirstRows (ents es) k) % M) := by
      intro k hk
      simp only [crcsrMemOf]
      rw [Buf.get_full (by omega), if_pos (by omega), countP_rowRank]
    refine ⟨crcsrMemOf M g (sortTriplets es), sortTriplets es, ?_, sortTriplets_perm es true, h.symm, hget, ?_⟩
    · rw [crcsrBuild_large M g es nnzrows hg hM hne hN (by omega), if_pos ⟨h, h0⟩]
    · have hle : ∀ k, entriesInFirstRows (ents es) k < M := by
        intro k
        have h1 : entriesInFirstRows (ents es) k ≤ (ents es).length := List.countP_le_length
        have h2 : (ents es).length = es.length := by simp [ents]
        omega
      have hmod : ∀ a b : Nat, b < M → ((a + b) % M = b ↔ a % M = 0) := by
        intro a b hb
        constructor
        · intro h
          have h1 : a + b ≡ 0 + b [MOD M] := by
            show _ % M = _ % M
            rw [h, Nat.zero_add, Nat.mod_eq_of_lt hb]
          have := Nat.ModEq.add_right_cancel' _ h1
          rw [this, Nat.zero_mod]
        · intro h
          rw [Nat.add_mod, h, Nat.zero_add, Nat.mod_mod, Nat.mod_eq_of_lt hb]
      constructor
      · intro H
        have H' : ∀ k, k ≤ nnzrows → (∑ j ∈ Finset.range (k + 1), g j) % M = 0 := by
          intro k hk
          have := (hget k hk).symm.trans (H k hk)
          injection this with this
          exact (hmod _ _ (hle k)).1 this
        intro k hk
        have h1 := H' k hk
        rw [Finset.sum_range_succ] at h1
        have h2 : (∑ j ∈ Finset.range k, g j) % M = 0 := by
          cases k with
          | zero => simp
          | succ k => exact H' k (by omega)
        rw [Nat.add_mod, h2, Nat.zero_add, Nat.mod_mod, Nat.mod_eq_of_lt (hg k)] at h1
        exact h1
      · intro H k hk
        rw [hget k hk, Finset.sum_eq_zero (fun j hj => H j (by simp at hj; omega)), Nat.zero_add,
          Nat.mod_eq_of_lt (hle k)]

/-- **C06**, the wrapper without a row count counts the rows before sorting: it is the call with the right
count when the entries of each row stand together in the input, and otherwise fails its first assertion
whatever the memory holds. -/
theorem C06_crcsr_wrapper (M : Nat) (g : Nat → Nat) (hg : ∀ k, g k < M) (es : List ε) (hne : es ≠ [])
    (hM : es.length + 1 < M) :
    (RowsContiguous (ents es) →
      (cooToCrCsrOn M (fun n => Buf.full (n + 1) g) es : C (CrCsr T × List ε)) =
        crcsrBuild M (Buf.full ((nonEmptyRows (ents es)).card + 1) g) es (nonEmptyRows (ents es)).card) ∧
    (¬ RowsContiguous (ents es) →
      (cooToCrCsrOn M (fun n => Buf.full (n + 1) g) es : C (CrCsr T × List ε)) = .error .assertion) := by
  have hk := runKeys_ge es
  have hl : (runKeys rowOf es).length ≤ es.length := by rw [runKeys_length]; exact runs_length_le _ _
  unfold cooToCrCsrOn
  rw [countNnzRows_spec M es hne hM, ok_bind]
  refine ⟨fun h => by rw [hk.2.2 h], fun h => ?_⟩
  have hlt : (nonEmptyRows (ents es)).card < (runKeys rowOf es).length :=
    Nat.lt_of_le_of_ne hk.1 (fun e => h (hk.2.1 e))
  exact (C06_crcsr_memory M _ g hg es hne hM (by omega)).2.1 hlt

/-- **C06**, silent wrong answers: a matrix with one non-empty row `r` built in memory that held
`a, 2^w - a` passes both assertions, and `spmv` then leaves out the first `a` products of the row. -/
theorem C06_crcsr_silently_wrong [Add T] [Mul T] (M rows columns r a : Nat) (es : List ε) (hne : es ≠ [])
    (hM : es.length + 1 < M) (hin : InRange (ents es) rows columns) (hrow : ∀ e ∈ ents es, e.row = r)
    (ha : 0 < a) (hal : a ≤ es.length) (g : Nat → Nat) (hg : ∀ k, g k < M) (g0 : g 0 = a) (g1 : g 1 = M - a)
    (x y : Nat → T) :
    ∃ A es', crcsrBuild M (Buf.full 2 g) es 1 = .ok (A, es') ∧
      A.spmv (Buf.full columns x) (Buf.full rows y) = .ok (Buf.full rows
        (fun i => if i = r then accumulate x (y r) ((rowByColumn (ents es) r).drop a) else y i)) := by
  have hlenE := length_sortTriplets es true
  have hp := ents_perm (sortTriplets_perm es true)
  have hs := sortTriplets_sorted es
  have hcard : (nonEmptyRows (ents es)).card = 1 := by
    have : nonEmptyRows (ents es) = {r} := by
      ext k
      simp only [nonEmptyRows, List.mem_toFinset, List.mem_map, Finset.mem_singleton]
      constructor
      · rintro ⟨e, he, rfl⟩; exact hrow e he
      · rintro rfl
        obtain ⟨e, l, he⟩ := List.exists_cons_of_ne_nil hne
        exact ⟨NZ.toEnt e, by rw [he]; simp [ents], hrow _ (by rw [he]; simp [ents])⟩
    rw [this]; simp
  have hK : (runKeys rowOf (sortTriplets es)).length = 1 := by
    rw [runKeys_card _ hs, nonEmptyRows_perm hp, hcard]
  have hsum : (∑ j ∈ Finset.range (1 + 1), g j) = M := by
    rw [Finset.sum_range_succ, Finset.sum_range_one, g0, g1]; omega
  refine ⟨crcsrMemOf M g (sortTriplets es), sortTriplets es, ?_, ?_⟩
  · rw [crcsrBuild_large M g es 1 hg hM hne (by omega) (by omega), if_pos ⟨hK.symm, by rw [hsum, Nat.mod_self]⟩]
  have hLr : ∀ e ∈ sortTriplets es, (NZ.toEnt e).row = r := fun e he =>
    hrow _ (hp.mem_iff.1 (List.mem_map_of_mem he))
  have hne' : sortTriplets es ≠ [] := by
    intro h; rw [h] at hlenE; simp at hlenE; exact hne (List.length_eq_zero_iff.1 hlenE.symm)
  have hbc : rowByColumn (ents es) r = ents (sortTriplets es) := by
    have h1 : rowEntries (ents (sortTriplets es)) r = ents (sortTriplets es) :=
      List.filter_eq_self.2 (fun e he => by simpa using hrow e (hp.mem_iff.1 he))
    rw [← h1, ents_sortTriplets]
    refine (rowEntries_mergeSort totalPre_rowMajor _ r (fun a _ b _ h1 h2 => ?_)).symm
    rw [leOf_ltRowMajor]
    simp only [decide_eq_decide]
    show a.row < b.row ∨ a.row = b.row ∧ a.col ≤ b.col ↔ _
    omega
  have hry : r < rows := by
    obtain ⟨e, l, he⟩ := List.exists_cons_of_ne_nil hne
    have hm : NZ.toEnt e ∈ ents es := by rw [he]; simp [ents]
    rw [← hrow _ hm]; exact (hin _ hm).1
  have hcount : ∀ k, entriesInFirstRows (ents es) k = if k = 0 then 0 else es.length := by
    intro k
    rw [← countP_rowRank]
    split
    · rename_i h; subst h; simp
    · rw [countP_lt_all, hlenE]
      intro e he
      have := (rowRank_lt _ hs e he).1
      omega
  have hrp : ∀ k, k ≤ 1 → (crcsrMemOf M g (sortTriplets es) : CrCsr T).rowPtr.get k =
      .ok (if k = 0 then a else es.length) := by
    intro k hk
    simp only [crcsrMemOf]
    rw [Buf.get_full (by omega), if_pos (by omega), countP_rowRank, hcount]
    rcases Nat.eq_zero_or_pos k with h | h
    · subst h
      rw [if_pos rfl, if_pos rfl, Finset.sum_range_one, g0, Nat.add_zero, Nat.mod_eq_of_lt (by omega)]
    · have h : k = 1 := by omega
      subst h
      rw [if_neg (by omega), if_neg (by omega), hsum, Nat.add_mod_left, Nat.mod_eq_of_lt (by omega)]
  have hnr : (crcsrMemOf M g (sortTriplets es) : CrCsr T).nnzRows.get 0 = .ok r := by
    have h0 : 0 < (runKeys rowOf (sortTriplets es)).length := by omega
    refine Buf.get_ok h0 ?_
    simp only [crcsrMemOf]
    rw [List.getElem?_eq_getElem h0]
    obtain ⟨e, he, hr⟩ := (mem_runKeys rowOf (sortTriplets es) _).1 (List.getElem_mem h0)
    rw [← hr]
    exact congrArg some (hLr e he)
  unfold CrCsr.spmv
  have hn : (crcsrMemOf M g (sortTriplets es) : CrCsr T).nnzRowsNum = 1 := hK
  rw [hn, forLoop_step (by omega)]
  unfold CrCsr.spmvRow
  rw [hrp 0 (by omega), ok_bind, hrp (0 + 1) (by omega), ok_bind, hnr, ok_bind, Buf.get_full hry, ok_bind]
  simp only [if_true, Nat.zero_add, Nat.one_ne_zero, if_false]
  have hfl := forLoop_slice (τ := T) (sortTriplets es) id (fun r e => r + (NZ.toEnt e).val * x (NZ.toEnt e).col)
    (y r) hal (by omega : es.length ≤ (sortTriplets es).length) (f := fun k t => do
        let v ← (crcsrMemOf M g (sortTriplets es) : CrCsr T).val.get k
        let c ← (crcsrMemOf M g (sortTriplets es) : CrCsr T).colInd.get k
        let xc ← (Buf.full columns x).get c
        Except.ok (t + v * xc)) (by
      intro j t h h1 h2
      have hm : NZ.toEnt (sortTriplets es)[j] ∈ ents (sortTriplets es) := List.mem_map_of_mem (List.getElem_mem h)
      rw [Buf.get_ok (b := (crcsrMemOf M g (sortTriplets es) : CrCsr T).val) (a := (NZ.toEnt (sortTriplets es)[j]).val) h
          (by simp [crcsrMemOf, h]), ok_bind,
        Buf.get_ok (b := (crcsrMemOf M g (sortTriplets es) : CrCsr T).colInd) (a := (NZ.toEnt (sortTriplets es)[j]).col) h
          (by simp [crcsrMemOf, h]), ok_bind,
        Buf.get_full (hin _ (hp.mem_iff.1 hm)).2, ok_bind]
      rfl)
  simp only [id] at hfl
  rw [hfl, ok_bind, Buf.put_full hry, ok_bind, forLoop_empty (by omega)]
  refine congrArg Except.ok (Buf.ext' rfl (fun k => ?_))
  simp only [Buf.full_dat]
  by_cases hk : k = r
  · subst hk
    simp only [if_true, id]
    rw [hbc, ← hlenE, List.take_length]
    unfold accumulate ents
    rw [← List.map_drop, List.foldl_map]
  · simp [hk]

/-- The hypotheses can be met: two entries in row 1, memory that held `1, 2^32 - 1`. -/
example : (∀ e ∈ ents [(⟨1, 0, 5⟩ : Ent Int), ⟨1, 2, 7⟩], e.row = 1) ∧
    InRange (ents [(⟨1, 0, 5⟩ : Ent Int), ⟨1, 2, 7⟩]) 3 4 ∧ 2 + 1 < 2 ^ 32 ∧
    (∀ k : Nat, (if k = 0 then 1 else 2 ^ 32 - 1) < 2 ^ 32) := by
  refine ⟨by decide, by decide, by decide, fun k => by split <;> decide⟩

/-- Three rows in an order where row 0 does not stand together, and one where every row does. -/
example : ¬ RowsContiguous [(⟨0, 0, 5⟩ : Ent Int), ⟨2, 2, 7⟩, ⟨0, 1, 1⟩] ∧
    RowsContiguous [(⟨2, 0, 5⟩ : Ent Int), ⟨2, 2, 7⟩, ⟨0, 1, 1⟩] := by
  refine ⟨fun h => ?_, ?_⟩
  · exact absurd (h [] 0 [2] [] rfl 2 (by simp)) (by decide)
  · unfold RowsContiguous
    rw [← nodup_runKeys_iff]
    decide

end Gsb
