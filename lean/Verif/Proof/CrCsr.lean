import Verif.Model.CrCsr
import Verif.Proof.Csr2
import Verif.Proof.Runs
import Verif.Proof.Cswr
namespace Gsb
variable {ε T : Type} [NZ ε T]

/-- Row of a stored non-zero. -/
def rowOf (e : ε) : Nat := (NZ.toEnt e).row

/-- Position of a row among the non-empty ones. -/
def rowRank (es : List ε) (e : ε) : Nat := (runKeys rowOf es).countP (fun k => decide (k < rowOf e))

theorem crFill_spec (M : Nat) (es : List ε) (hne : es ≠ [])
    (hs : es.Pairwise (fun a b => rowOf a ≤ rowOf b))
    (hM : es.length + 1 < M) {nr0 : Buf Nat} (hl0 : nr0.len = (runKeys rowOf es).length)
    (hd0 : ∀ k, nr0.dat k = (runKeys rowOf (es.take 1))[k]?) :
    forLoop 0 es.length
      (⟨Buf.uninit es.length, Buf.uninit es.length, nr0,
        Buf.filled ((runKeys rowOf es).length + 1) 0, 0⟩ : CrFill T) (crFillStep M es) =
    .ok ⟨⟨es.length, fun k => (es[k]?).map (fun e => (NZ.toEnt e).col)⟩,
         ⟨es.length, fun k => (es[k]?).map (fun e => (NZ.toEnt e).val)⟩,
         ⟨(runKeys rowOf es).length, fun k => (runKeys rowOf es)[k]?⟩,
         Buf.full ((runKeys rowOf es).length + 1) (fun k => es.countP (fun e => rowRank es e + 1 == k)),
         (runKeys rowOf es).length - 1⟩ := by
  have hlen0 : 0 < es.length := List.length_pos_iff.2 hne
  refine forLoop_closed' (fun i =>
    (⟨⟨es.length, fun k => ((es.take i)[k]?).map (fun e => (NZ.toEnt e).col)⟩,
      ⟨es.length, fun k => ((es.take i)[k]?).map (fun e => (NZ.toEnt e).val)⟩,
      ⟨(runKeys rowOf es).length, fun k => (runKeys rowOf (es.take (max i 1)))[k]?⟩,
      Buf.full ((runKeys rowOf es).length + 1) (fun k => (es.take i).countP (fun e => rowRank es e + 1 == k)),
      (runKeys rowOf (es.take (max i 1))).length - 1⟩ : CrFill T)) (Nat.zero_le _) ?_ ?_ ?_
  · simp only [Buf.uninit, Buf.filled, Buf.full, CrFill.mk.injEq]
    refine ⟨by simp, by simp, ?_, by simp, ?_⟩
    · refine Buf.ext' (by simp [hl0]) (fun k => by simp [hd0])
    · have := runKeys_take rowOf es hs 0 hlen0
      simp only [Nat.max_eq_right (Nat.zero_le 1), runKeys_length]
      have h2 := runs_length_le rowOf (es.take 1)
      have h3 : (es.take 1).length = 1 := by simp; omega
      omega
  · rw [Nat.max_eq_left hlen0, List.take_length]
  · intro i _ hi
    have hlen : (es.take i).length = i := by simp; omega
    have htake : es.take (i + 1) = es.take i ++ [es[i]] := take_succ_eq hi
    -- facts about the previous and the new element
    have hA : (runs rowOf (es.take (i + 1))).length = rowRank es es[i] + 1 := (runKeys_take rowOf es hs i hi).1
    have hKle : (runs rowOf (es.take (i + 1))).length ≤ (runKeys rowOf es).length := by
      rw [runKeys_length]; exact runs_take_le rowOf es (i + 1)
    have hKM : (runKeys rowOf es).length ≤ es.length := by rw [runKeys_length]; exact runs_length_le _ _
    unfold crFillStep
    rw [rd_ok hi, ok_bind]
    simp only
    rw [fill_put (es.take i) (fun e => (NZ.toEnt e).col) es[i] hlen hi, ok_bind,
      fill_put (es.take i) (fun e => (NZ.toEnt e).val) es[i] hlen hi, ok_bind]
    rw [Nat.max_eq_left (show 1 ≤ i + 1 by omega)]
    rcases Nat.eq_zero_or_pos i with h0 | hpos
    · -- first iteration: the current row is already recorded
      subst h0
      have hr1 : (runs rowOf (es.take 1)).length = 1 := by
        have h2 := runs_length_le rowOf (es.take 1)
        have h3 : (es.take 1).length = 1 := by simp; omega
        simp only [Nat.zero_add] at hA
        omega
      have hk1 : (runKeys rowOf (es.take 1))[0]? = some (rowOf es[0]) := by
        have := runKeys_last rowOf _ _ (getLast?_take (l := es) hi)
        rw [List.getLast?_eq_getElem?, runKeys_length] at this
        simp only [Nat.zero_add, hr1, Nat.sub_self] at this
        exact this
      simp only [Nat.max_eq_right (Nat.zero_le 1), runKeys_length, hr1, Nat.sub_self, Nat.zero_add]
      rw [Buf.get_ok (a := rowOf es[0]) (by show 0 < (runs rowOf es).length; rw [runKeys_length] at hKle; omega) hk1, ok_bind]
      simp only [rowOf, ne_eq, not_true_eq_false, if_false]
      rw [ok_bind]
      simp only
      have hrank : rowRank es es[0] = 0 := by
        have hA' : (runs rowOf (es.take 1)).length = rowRank es es[0] + 1 := hA
        omega
      have := incr_count (M := M) (len := (runs rowOf es).length + 1) (es.take 0) (rowRank es) es[0]
        (by rw [hrank]; have := runKeys_length rowOf es; omega) (by simp; omega)
      rw [hrank] at this
      rw [addM_eq (by omega), this, ok_bind]
      simp [htake]
    · -- later iterations: compare with the previous element
      obtain ⟨k, rfl⟩ : ∃ k, i = k + 1 := ⟨i - 1, by omega⟩
      rw [Nat.max_eq_left (show 1 ≤ k + 1 by omega)]
      have hk : k < es.length := by omega
      have hlast := getLast?_take (l := es) hk
      have hB : (runs rowOf (es.take (k + 1))).length = rowRank es es[k] + 1 := (runKeys_take rowOf es hs k hk).1
      have hBle : (runs rowOf (es.take (k + 1))).length ≤ (runKeys rowOf es).length := by
        rw [runKeys_length]; exact runs_take_le rowOf es (k + 1)
      have hkl : (runKeys rowOf (es.take (k + 1)))[(runKeys rowOf (es.take (k + 1))).length - 1]? =
          some (rowOf es[k]) := by
        rw [← List.getLast?_eq_getElem?]; exact runKeys_last rowOf _ _ hlast
      rw [Buf.get_ok (a := rowOf es[k]) (by show _ < (runKeys rowOf es).length; rw [runKeys_length] at hBle ⊢; rw [runKeys_length]; omega) hkl, ok_bind]
      have hinc := incr_count (M := M) (len := (runKeys rowOf es).length + 1) (es.take (k + 1)) (rowRank es) es[k+1]
        (by omega) (by rw [hlen]; omega)
      rw [← htake] at hinc
      have hcl : (runKeys rowOf (es.take (k + 1))).length - 1 = rowRank es es[k] := by
        rw [runKeys_length]; omega
      have hcl2 : (runKeys rowOf (es.take (k + 1 + 1))).length - 1 = rowRank es es[k+1] := by
        rw [runKeys_length]; omega
      rw [hcl, hcl2]
      by_cases hsame : rowOf es[k] = rowOf es[k+1]
      · have hrr : rowRank es es[k] = rowRank es es[k+1] := by unfold rowRank; rw [hsame]
        rw [if_neg (by simpa [rowOf] using hsame), ok_bind]
        simp only
        rw [hrr, addM_eq (by omega), hinc, ok_bind]
        rw [htake, runKeys_same rowOf _ _ _ hlast hsame]
      · rw [if_pos (by simpa [rowOf] using hsame)]
        have hnew : ∀ b, (es.take (k+1)).getLast? = some b → rowOf b ≠ rowOf es[k+1] := by
          intro b hb; rw [hlast] at hb; simp at hb; subst hb; exact hsame
        have hkn := runKeys_new rowOf (es.take (k+1)) es[k+1] hnew
        rw [← htake] at hkn
        have hrk : rowRank es es[k] + 1 = rowRank es es[k+1] := by
          have := congrArg List.length hkn
          simp at this
          omega
        have hfp := fill_put (n := (runKeys rowOf es).length) (i := rowRank es es[k+1])
          (runKeys rowOf (es.take (k+1))) id (rowOf es[k+1]) (by rw [runKeys_length]; omega) (by omega)
        have hid : ∀ o : Option Nat, o.map id = o := by intro o; cases o <;> rfl
        simp only [hid] at hfp
        rw [id_eq] at hfp
        rw [addM_eq (by omega), hrk]
        have e1 : (NZ.toEnt es[k+1]).row = rowOf es[k+1] := rfl
        rw [e1, hfp, ok_bind, ok_bind]
        simp only
        rw [addM_eq (by omega), hinc, ok_bind, hkn, ← htake]

/-- The compressed-row matrix holding the row-sorted array `es`. -/
def crcsrOf (es : List ε) : CrCsr T where
  val := ⟨es.length, fun k => (es[k]?).map (fun e => (NZ.toEnt e).val)⟩
  colInd := ⟨es.length, fun k => (es[k]?).map (fun e => (NZ.toEnt e).col)⟩
  rowPtr := Buf.full ((runKeys rowOf es).length + 1) (fun k => if k ≤ (runKeys rowOf es).length then
    es.countP (fun e => decide (rowRank es e < k)) else es.countP (fun e => rowRank es e + 1 == k))
  nnzRows := ⟨(runKeys rowOf es).length, fun k => (runKeys rowOf es)[k]?⟩
  nnzRowsNum := (runKeys rowOf es).length

theorem rowRank_lt (es : List ε) (hs : es.Pairwise (fun a b => rowOf a ≤ rowOf b)) (e : ε) (he : e ∈ es) :
    rowRank es e < (runKeys rowOf es).length ∧ (runKeys rowOf es)[rowRank es e]? = some (rowOf e) := by
  obtain ⟨i, hi, rfl⟩ := List.getElem_of_mem he
  have h := runKeys_take rowOf es hs i hi
  have h2 : (runKeys rowOf es)[rowRank es es[i]]? = some (rowOf es[i]) := by
    have := h.2
    rw [h.1, Nat.add_sub_cancel] at this
    exact this
  exact ⟨(List.getElem?_eq_some_iff.1 h2).1, h2⟩

/-- With the row pointers zeroed and the right row count, the constructor succeeds. -/
theorem crcsrBuild_spec (M : Nat) (es : List ε) (hne : es ≠ []) (hM : es.length + 1 < M) :
    crcsrBuild M (Buf.filled ((runKeys rowOf (sortTriplets es)).length + 1) 0) es
      (runKeys rowOf (sortTriplets es)).length =
      .ok (crcsrOf (sortTriplets es), sortTriplets es) := by
  have hlenE := length_sortTriplets es true
  have hne' : sortTriplets es ≠ [] := by
    intro h; rw [h] at hlenE; simp at hlenE; exact hne (List.length_eq_zero_iff.1 hlenE.symm)
  have hs := sortTriplets_sorted es
  unfold crcsrBuild
  simp only
  generalize sortTriplets es = L at *
  have hpos : 0 < L.length := List.length_pos_iff.2 hne'
  have hKpos : 0 < (runKeys rowOf L).length := by rw [runKeys_length]; exact runs_length_pos _ hne'
  have hKle : (runKeys rowOf L).length ≤ L.length := by rw [runKeys_length]; exact runs_length_le _ _
  rw [rd_ok hpos, ok_bind, Buf.put_ok (by exact hKpos), ok_bind]
  rw [crFill_spec M L hne' hs (by omega) rfl]
  · rw [ok_bind]
    simp only
    rw [subM_eq (by omega) (by omega), cassert_ok (by simp), ok_bind,
      prefixSum_count L (rowRank L) rfl (by omega), ok_bind, Buf.get_full (by omega), ok_bind]
    simp only [Nat.le_refl, if_true]
    rw [countP_lt_all L (rowRank L) _ (fun e he => (rowRank_lt L hs e he).1)]
    simp [crcsrOf]
  · intro k
    have h1 : L.take 1 = [L[0]] := by
      have := take_succ_eq hpos
      simpa using this
    rw [h1]
    simp only [Buf.uninit]
    have : runKeys rowOf [L[0]] = [rowOf L[0]] := by simp [runKeys, runs, addRun, runKey]
    rw [this]
    cases k with
    | zero => rfl
    | succ k => simp

theorem crcsr_spmv_spec [Add T] [Mul T] (es : List ε) (hs : es.Pairwise (fun a b => rowOf a ≤ rowOf b))
    {nx ny : Nat} (hx : ∀ e ∈ ents es, e.col < nx) (hy : ∀ e ∈ ents es, e.row < ny) (x y : Nat → T) :
    (crcsrOf es).spmv (Buf.full nx x) (Buf.full ny y) =
      .ok (Buf.full ny (spmvInOrder (ents es) x y)) := by
  unfold CrCsr.spmv
  refine forLoop_closed' (fun i => Buf.full ny (visit x y
    (ents (es.take (es.countP (fun e => decide (rowRank es e < i))))))) (Nat.zero_le _) ?_ ?_ ?_
  · simp [visit, ents]
  · show Buf.full ny (visit x y (ents (es.take (es.countP
      (fun e => decide (rowRank es e < (runKeys rowOf es).length)))))) = _
    rw [countP_lt_all es (rowRank es) _ (fun e he => (rowRank_lt es hs e he).1), List.take_length, visit_eq]
  · intro i _ hi
    have hi : i < (runKeys rowOf es).length := hi
    unfold CrCsr.spmvRow
    have hrs : es.Pairwise (fun a b => rowRank es a ≤ rowRank es b) := by
      refine List.Pairwise.imp ?_ hs
      intro a b h
      unfold rowRank
      exact List.countP_mono_left (by intro k _ h'; simp at *; omega)
    have hrp : ∀ j, j ≤ (runKeys rowOf es).length → (crcsrOf es : CrCsr T).rowPtr.get j =
        .ok (es.countP (fun e => decide (rowRank es e < j))) := by
      intro j hj
      simp only [crcsrOf]
      rw [Buf.get_full (by omega), if_pos hj]
    rw [hrp i (by omega), ok_bind, hrp (i+1) (by omega), ok_bind]
    have hK : (runKeys rowOf es)[i]? = some (runKeys rowOf es)[i] := List.getElem?_eq_getElem hi
    rw [Buf.get_ok (b := (crcsrOf es : CrCsr T).nnzRows) (a := (runKeys rowOf es)[i]) hi hK, ok_bind]
    set a := es.countP (fun e => decide (rowRank es e < i)) with ha
    set b := es.countP (fun e => decide (rowRank es e < i + 1)) with hb
    have hab : a ≤ b := countP_lt_mono es (rowRank es) (by omega)
    have hbl : b ≤ es.length := List.countP_le_length
    obtain ⟨e0, he0, hr0⟩ := (mem_runKeys rowOf es _).1 (List.getElem_mem hi)
    have hry : (runKeys rowOf es)[i] < ny := by
      rw [← hr0]; exact hy _ (List.mem_map_of_mem he0)
    rw [Buf.get_full hry, ok_bind]
    have hfl : forLoop a b (visit x y (ents (es.take a)) (runKeys rowOf es)[i]) (fun k t => do
        let v ← (crcsrOf es : CrCsr T).val.get k
        let c ← (crcsrOf es : CrCsr T).colInd.get k
        let xc ← (Buf.full nx x).get c
        Except.ok (t + v * xc)) = .ok (((es.take b).drop a).foldl
          (fun r e => r + (NZ.toEnt e).val * x (NZ.toEnt e).col)
          (visit x y (ents (es.take a)) (runKeys rowOf es)[i])) := by
      refine forLoop_slice (τ := T) es id (fun r e => r + (NZ.toEnt e).val * x (NZ.toEnt e).col)
        (visit x y (ents (es.take a)) (runKeys rowOf es)[i]) hab hbl ?_
      intro j t h h1 h2
      have hm : NZ.toEnt es[j] ∈ ents es := List.mem_map_of_mem (List.getElem_mem h)
      rw [Buf.get_ok (b := (crcsrOf es : CrCsr T).val) (a := (NZ.toEnt es[j]).val) h (by simp [crcsrOf, h]), ok_bind,
        Buf.get_ok (b := (crcsrOf es : CrCsr T).colInd) (a := (NZ.toEnt es[j]).col) h (by simp [crcsrOf, h]), ok_bind,
        Buf.get_full (hx _ hm), ok_bind]
      rfl
    rw [hfl]
    · rw [ok_bind, Buf.put_full hry]
      have hrow : ∀ e ∈ ents ((es.take b).drop a), e.row = (runKeys rowOf es)[i] := by
        intro e he
        obtain ⟨c, hc, rfl⟩ := List.mem_map.1 he
        obtain ⟨j, hj, rfl⟩ := List.mem_iff_getElem.1 hc
        have hj2 : a + j < es.length ∧ j < b - a := by simp at hj; omega
        rw [List.getElem_drop, List.getElem_take]
        have h1 := slice_eq es (rowRank es) hrs i (a + j) hj2.1 (by omega) (by omega)
        have h2 := (rowRank_lt es hs es[a+j] (List.getElem_mem _)).2
        rw [h1, hK] at h2
        simp at h2
        exact h2.symm
      have hv := visit_row x (visit x y (ents (es.take a))) (ents ((es.take b).drop a)) _ hrow
      congr 2
      have hfin : visit x y (ents (es.take b)) = visit x (visit x y (ents (es.take a))) (ents ((es.take b).drop a)) := by
        rw [← visit_append]
        unfold ents
        rw [← List.map_append, take_drop_append es hab]
      rw [hfin, hv]
      funext k
      unfold accumulate ents
      rw [List.foldl_map]

/-- `count_nnz_rows` on a sorted array counts the non-empty rows. -/
theorem countNnzRows_spec (M : Nat) (es : List ε) (hne : es ≠ []) (hM : es.length + 1 < M) :
    countNnzRows M es = .ok (runKeys rowOf es).length := by
  have hpos : 0 < es.length := List.length_pos_iff.2 hne
  unfold countNnzRows
  rw [rd_ok hpos, ok_bind]
  have hrl : ∀ i, i < es.length → (runKeys rowOf (es.take (i + 1))).length + 1 < M := by
    intro i hi
    have h1 := runs_take_le rowOf es (i + 1)
    have h2 := runs_length_le rowOf es
    rw [runKeys_length]; omega
  have h1 : es.take 1 = [es[0]] := by
    have := take_succ_eq hpos
    simpa using this
  have hk1 : runKeys rowOf (es.take 1) = [rowOf es[0]] := by
    rw [h1]; simp [runKeys, runs, addRun, runKey]
  rw [forLoop_closed' (fun i => ((runKeys rowOf (es.take (max i 1))).length, ((es.take (max i 1)).getLast?.map rowOf).getD 0))
    (Nat.zero_le _) ?_ rfl]
  · rw [ok_bind]
    simp only
    rw [Nat.max_eq_left (show 1 ≤ es.length from hpos), List.take_length]
  · intro i _ hi
    rw [rd_ok hi, ok_bind]
    simp only
    rw [Nat.max_eq_left (show 1 ≤ i + 1 by omega), getLast?_take hi]
    rcases Nat.eq_zero_or_pos i with h0 | hp
    · subst h0
      simp only [Nat.max_eq_right (Nat.zero_le 1), Nat.zero_add]
      rw [h1]
      simp [rowOf]
    · obtain ⟨k, rfl⟩ : ∃ k, i = k + 1 := ⟨i - 1, by omega⟩
      have hk : k < es.length := by omega
      have hlast := getLast?_take (l := es) hk
      rw [Nat.max_eq_left (show 1 ≤ k + 1 by omega), hlast]
      simp only [Option.map_some, Option.getD_some]
      by_cases hsame : rowOf es[k] = rowOf es[k+1]
      · rw [if_neg (by simpa [rowOf] using hsame.symm), take_succ_eq hi, runKeys_same rowOf _ _ _ hlast hsame, hsame]
      · rw [if_pos (by simpa [rowOf] using fun h => hsame h.symm), take_succ_eq hi, runKeys_new rowOf _ _ (by
          intro b hb; rw [hlast] at hb; simp at hb; subst hb; exact hsame)]
        rw [addM_eq (hrl k hk)]
        simp [rowOf]
  · simp only [Nat.max_eq_right (Nat.zero_le 1)]
    rw [hk1, h1]; simp [rowOf]

end Gsb
