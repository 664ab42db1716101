import Verif.Proof.CrCsr
import Verif.Spec.Counts
import Mathlib.Algebra.BigOperators.Intervals
/-
`Coo_to_CrCsr` run on arbitrary contents of the memory its row pointers are allocated in.
-/
namespace Gsb
variable {ε T : Type} [NZ ε T]

theorem incr_countMod {α : Type} {M len : Nat} (g : Nat → Nat) (l : List α) (f : α → Nat) (a : α) (hk : f a + 1 < len) :
    incr M (Buf.full len (fun k => (g k + l.countP (fun e => f e + 1 == k)) % M)) (f a + 1) =
      .ok (Buf.full len (fun k => (g k + (l ++ [a]).countP (fun e => f e + 1 == k)) % M)) := by
  unfold incr
  rw [Buf.get_full hk, ok_bind, Buf.put_full hk]
  congr 2; funext i
  rw [List.countP_append, List.countP_singleton]
  by_cases h : i = f a + 1
  · subst h
    simp only [if_true, addM, beq_self_eq_true]
    rw [Nat.mod_add_mod]
    rfl
  · have : ¬ f a + 1 = i := fun hh => h hh.symm
    simp [h, this]

theorem crFill_gen (M N : Nat) (g : Nat → Nat) (hg : ∀ k, g k < M) (es : List ε)
    (hs : es.Pairwise (fun a b => rowOf a ≤ rowOf b)) (m : Nat) (hm : m ≤ es.length)
    (hN : (runKeys rowOf (es.take m)).length ≤ N) (hN0 : 0 < N) (hNM : N < M) (hlen0 : 0 < es.length)
    (hM : es.length + 1 < M) {nr0 : Buf Nat} (hl0 : nr0.len = N)
    (hd0 : ∀ k, nr0.dat k = (runKeys rowOf (es.take 1))[k]?) :
    forLoop 0 m
      (⟨Buf.uninit es.length, Buf.uninit es.length, nr0, Buf.full (N + 1) g, 0⟩ : CrFill T) (crFillStep M es) =
    .ok ⟨⟨es.length, fun k => ((es.take m)[k]?).map (fun e => (NZ.toEnt e).col)⟩,
         ⟨es.length, fun k => ((es.take m)[k]?).map (fun e => (NZ.toEnt e).val)⟩,
         ⟨N, fun k => (runKeys rowOf (es.take (max m 1)))[k]?⟩,
         Buf.full (N + 1) (fun k => (g k + (es.take m).countP (fun e => rowRank es e + 1 == k)) % M),
         (runKeys rowOf (es.take (max m 1))).length - 1⟩ := by
  refine forLoop_closed' (fun i =>
    (⟨⟨es.length, fun k => ((es.take i)[k]?).map (fun e => (NZ.toEnt e).col)⟩,
      ⟨es.length, fun k => ((es.take i)[k]?).map (fun e => (NZ.toEnt e).val)⟩,
      ⟨N, fun k => (runKeys rowOf (es.take (max i 1)))[k]?⟩,
      Buf.full (N + 1) (fun k => (g k + (es.take i).countP (fun e => rowRank es e + 1 == k)) % M),
      (runKeys rowOf (es.take (max i 1))).length - 1⟩ : CrFill T)) (Nat.zero_le _) ?_ ?_ ?_
  · simp only [Buf.uninit, Buf.filled, Buf.full, CrFill.mk.injEq]
    refine ⟨by simp, by simp, ?_, by simp [Nat.mod_eq_of_lt (hg _)], ?_⟩
    · refine Buf.ext' (by simp [hl0]) (fun k => by simp [hd0])
    · have := runKeys_take rowOf es hs 0 hlen0
      simp only [Nat.max_eq_right (Nat.zero_le 1), runKeys_length]
      have h2 := runs_length_le rowOf (es.take 1)
      have h3 : (es.take 1).length = 1 := by simp; omega
      omega
  · rfl
  · intro i _ him
    have hi : i < es.length := by omega
    have hlen : (es.take i).length = i := by simp; omega
    have htake : es.take (i + 1) = es.take i ++ [es[i]] := take_succ_eq hi
    -- facts about the previous and the new element
    have hA : (runs rowOf (es.take (i + 1))).length = rowRank es es[i] + 1 := (runKeys_take rowOf es hs i hi).1
    have hKle : (runs rowOf (es.take (i + 1))).length ≤ N := by
      rw [runKeys_length] at hN
      have := runs_take_le rowOf (es.take m) (i + 1)
      rw [List.take_take, Nat.min_eq_left (by omega)] at this
      omega
    unfold crFillStep
    rw [rd_ok hi, ok_bind]
    simp only
    rw [fill_put (es.take i) (fun e => (NZ.toEnt e).col) es[i] hlen hi, ok_bind,
      fill_put (es.take i) (fun e => (NZ.toEnt e).val) es[i] hlen hi, ok_bind]
    rw [Nat.max_eq_left (show 1 ≤ i + 1 by omega)]
    rcases Nat.eq_zero_or_pos i with h0 | hpos
    · -- first iteration: the current row is already recorded
      subst h0
      have hr1 : (runs rowOf (es.take 1)).length = 1 := by
        have h2 := runs_length_le rowOf (es.take 1)
        have h3 : (es.take 1).length = 1 := by simp; omega
        simp only [Nat.zero_add] at hA
        omega
      have hk1 : (runKeys rowOf (es.take 1))[0]? = some (rowOf es[0]) := by
        have := runKeys_last rowOf _ _ (getLast?_take (l := es) hi)
        rw [List.getLast?_eq_getElem?, runKeys_length] at this
        simp only [Nat.zero_add, hr1, Nat.sub_self] at this
        exact this
      simp only [Nat.max_eq_right (Nat.zero_le 1), runKeys_length, hr1, Nat.sub_self, Nat.zero_add]
      rw [Buf.get_ok (a := rowOf es[0]) (by exact hN0) hk1, ok_bind]
      simp only [rowOf, ne_eq, not_true_eq_false, if_false]
      rw [ok_bind]
      simp only
      have hrank : rowRank es es[0] = 0 := by
        have hA' : (runs rowOf (es.take 1)).length = rowRank es es[0] + 1 := hA
        omega
      have := incr_countMod (M := M) (len := N + 1) g (es.take 0) (rowRank es) es[0]
        (by rw [hrank]; omega)
      rw [hrank] at this
      rw [addM_eq (by omega), this, ok_bind]
      simp [htake]
    · -- later iterations: compare with the previous element
      obtain ⟨k, rfl⟩ : ∃ k, i = k + 1 := ⟨i - 1, by omega⟩
      rw [Nat.max_eq_left (show 1 ≤ k + 1 by omega)]
      have hk : k < es.length := by omega
      have hlast := getLast?_take (l := es) hk
      have hB : (runs rowOf (es.take (k + 1))).length = rowRank es es[k] + 1 := (runKeys_take rowOf es hs k hk).1
      have hBle : (runs rowOf (es.take (k + 1))).length ≤ N := by
        have := runs_take_le rowOf (es.take (k + 1 + 1)) (k + 1)
        rw [List.take_take, Nat.min_eq_left (by omega)] at this
        omega
      have hkl : (runKeys rowOf (es.take (k + 1)))[(runKeys rowOf (es.take (k + 1))).length - 1]? =
          some (rowOf es[k]) := by
        rw [← List.getLast?_eq_getElem?]; exact runKeys_last rowOf _ _ hlast
      rw [Buf.get_ok (a := rowOf es[k]) (by show _ < N; rw [runKeys_length]; omega) hkl, ok_bind]
      have hinc := incr_countMod (M := M) (len := N + 1) g (es.take (k + 1)) (rowRank es) es[k+1]
        (by omega)
      rw [← htake] at hinc
      have hcl : (runKeys rowOf (es.take (k + 1))).length - 1 = rowRank es es[k] := by
        rw [runKeys_length]; omega
      have hcl2 : (runKeys rowOf (es.take (k + 1 + 1))).length - 1 = rowRank es es[k+1] := by
        rw [runKeys_length]; omega
      rw [hcl, hcl2]
      by_cases hsame : rowOf es[k] = rowOf es[k+1]
      · have hrr : rowRank es es[k] = rowRank es es[k+1] := by unfold rowRank; rw [hsame]
        rw [if_neg (by simpa [rowOf] using hsame), ok_bind]
        simp only
        rw [hrr, addM_eq (by omega), hinc, ok_bind]
        rw [htake, runKeys_same rowOf _ _ _ hlast hsame]
      · rw [if_pos (by simpa [rowOf] using hsame)]
        have hnew : ∀ b, (es.take (k+1)).getLast? = some b → rowOf b ≠ rowOf es[k+1] := by
          intro b hb; rw [hlast] at hb; simp at hb; subst hb; exact hsame
        have hkn := runKeys_new rowOf (es.take (k+1)) es[k+1] hnew
        rw [← htake] at hkn
        have hrk : rowRank es es[k] + 1 = rowRank es es[k+1] := by
          have := congrArg List.length hkn
          simp at this
          omega
        have hfp := fill_put (n := N) (i := rowRank es es[k+1])
          (runKeys rowOf (es.take (k+1))) id (rowOf es[k+1]) (by rw [runKeys_length]; omega) (by omega)
        have hid : ∀ o : Option Nat, o.map id = o := by intro o; cases o <;> rfl
        simp only [hid] at hfp
        rw [id_eq] at hfp
        rw [addM_eq (by omega), hrk]
        have e1 : (NZ.toEnt es[k+1]).row = rowOf es[k+1] := rfl
        rw [e1, hfp, ok_bind, ok_bind]
        simp only
        rw [addM_eq (by omega), hinc, ok_bind, hkn, ← htake]


/-- The prefix sum, modulo the index type. -/
theorem prefixSum_mod {M len n : Nat} (h : Nat → Nat) (hn : n + 1 = len) (hM : ∀ k, h k < M) :
    prefixSum M (Buf.full len h) n =
      .ok (Buf.full len (fun k => if k ≤ n then (∑ j ∈ Finset.range (k + 1), h j) % M else h k)) := by
  unfold prefixSum
  refine forLoop_closed' (fun i => Buf.full len (fun k => if k ≤ i then (∑ j ∈ Finset.range (k + 1), h j) % M else h k))
    (Nat.zero_le _) ?_ rfl ?_
  · refine Buf.ext' rfl (fun k => ?_)
    simp only [Buf.full_dat, Nat.le_zero]
    split
    · rename_i h0
      subst h0; simp [Nat.mod_eq_of_lt (hM 0)]
    · rfl
  · intro i _ hi
    rw [Buf.get_full (by omega), ok_bind, Buf.get_full (by omega), ok_bind, Buf.put_full (by omega)]
    refine congrArg Except.ok (Buf.ext' rfl (fun k => ?_))
    simp only [Buf.full_dat]
    by_cases h0 : k = i + 1
    · subst h0
      rw [Finset.sum_range_succ _ (i + 1)]
      simp [addM, Nat.add_comm]
    · have : (k ≤ i + 1) ↔ k ≤ i := by omega
      simp [h0, this]

theorem runs_length_succ (key : ε → Nat) (es : List ε) (i : Nat) (hi : i < es.length) :
    (runs key (es.take (i + 1))).length ≤ (runs key (es.take i)).length + 1 := by
  rw [take_succ_eq hi]
  cases hb : (es.take i).getLast? with
  | none => rw [runs_new key _ _ (by simp [hb])]; simp
  | some b =>
    by_cases h : key b = key es[i]
    · obtain ⟨G0, g, e1, e2, -, -⟩ := runs_same key _ _ b hb h
      rw [e1, e2]; simp
    · rw [runs_new key _ _ (by intro c hc; rw [hb] at hc; simp at hc; subst hc; exact h)]; simp

/-- The loop reaches the point where one more row is needed. -/
theorem runs_reach (key : ε → Nat) (es : List ε) (N : Nat) (hN : N < (runs key es).length) :
    ∃ m, m < es.length ∧ (runs key (es.take m)).length = N ∧ (runs key (es.take (m + 1))).length = N + 1 := by
  have : ∀ j, j ≤ es.length → N < (runs key (es.take j)).length →
      ∃ m, m < es.length ∧ (runs key (es.take m)).length = N ∧ (runs key (es.take (m + 1))).length = N + 1 := by
    intro j
    induction j with
    | zero => intro _ h; simp [runs] at h
    | succ j ih =>
      intro hj h
      by_cases h' : N < (runs key (es.take j)).length
      · exact ih (by omega) h'
      · have := runs_length_succ key es j (by omega)
        exact ⟨j, by omega, by omega, by omega⟩
  exact this es.length (Nat.le_refl _) (by rw [List.take_length]; exact hN)

variable (M : Nat) (g : Nat → Nat)

/-- What the row pointers of `Coo_to_CrCsr` hold in the end when their memory held `g`. -/
def crcsrMemOf (M : Nat) (g : Nat → Nat) (es : List ε) : CrCsr T where
  val := ⟨es.length, fun k => (es[k]?).map (fun e => (NZ.toEnt e).val)⟩
  colInd := ⟨es.length, fun k => (es[k]?).map (fun e => (NZ.toEnt e).col)⟩
  rowPtr := Buf.full ((runKeys rowOf es).length + 1) (fun k => if k ≤ (runKeys rowOf es).length then
    ((∑ j ∈ Finset.range (k + 1), g j) + es.countP (fun e => decide (rowRank es e < k))) % M
    else (g k + es.countP (fun e => rowRank es e + 1 == k)) % M)
  nnzRows := ⟨(runKeys rowOf es).length, fun k => (runKeys rowOf es)[k]?⟩
  nnzRowsNum := (runKeys rowOf es).length

theorem sum_count (es : List ε) (f : ε → Nat) (k : Nat) :
    ∑ j ∈ Finset.range (k + 1), es.countP (fun e => f e + 1 == j) = es.countP (fun e => decide (f e < k)) := by
  induction es with
  | nil => simp
  | cons a l ih =>
    simp only [List.countP_cons, Finset.sum_add_distrib, ih]
    congr 1
    by_cases h : f a < k
    · rw [Finset.sum_eq_single (f a + 1)]
      · simp [h]
      · intro b _ hb
        simp [Ne.symm hb]
      · intro hb
        simp at hb; omega
    · rw [Finset.sum_eq_zero]
      · simp [h]
      · intro b hb
        simp at hb
        have : ¬ f a + 1 = b := by omega
        simp [this]

theorem crcsrBuild_small (es : List ε) (N : Nat) (hg : ∀ k, g k < M) (hM : es.length + 1 < M)
    (hN : N < (runKeys rowOf (sortTriplets es)).length) :
    (crcsrBuild M (Buf.full (N + 1) g) es N : C (CrCsr T × List ε)) = .error .oob := by
  have hlenE := length_sortTriplets es true
  have hs := sortTriplets_sorted es
  unfold crcsrBuild
  simp only
  generalize sortTriplets es = L at *
  rw [runKeys_length] at hN
  have hKle : (runs rowOf L).length ≤ L.length := runs_length_le _ _
  have hpos : 0 < L.length := by omega
  rw [rd_ok hpos, ok_bind]
  rcases Nat.eq_zero_or_pos N with h0 | hN0
  · subst h0; simp [Buf.put, Buf.uninit]
  rw [Buf.put_ok (by exact hN0), ok_bind]
  obtain ⟨m, hm, e1, e2⟩ := runs_reach rowOf L N hN
  have hm0 : 0 < m := by
    rcases Nat.eq_zero_or_pos m with h | h
    · subst h; simp [runs] at e1; omega
    · exact h
  rw [forLoop_split (Nat.zero_le m) (Nat.le_of_lt hm)]
  rw [crFill_gen M N g hg L hs m (Nat.le_of_lt hm) (by rw [runKeys_length]; omega) hN0 (by omega) hpos (by omega) rfl]
  · rw [ok_bind, forLoop_step hm]
    unfold crFillStep
    rw [rd_ok hm, ok_bind]
    simp only
    have hlen : (L.take m).length = m := by simp; omega
    rw [fill_put (L.take m) (fun e => (NZ.toEnt e).col) L[m] hlen hm, ok_bind,
      fill_put (L.take m) (fun e => (NZ.toEnt e).val) L[m] hlen hm, ok_bind, Nat.max_eq_left (by omega)]
    obtain ⟨k, rfl⟩ : ∃ k, m = k + 1 := ⟨m - 1, by omega⟩
    have hlast := getLast?_take (l := L) (show k < L.length by omega)
    have hkl : (runKeys rowOf (L.take (k + 1)))[(runKeys rowOf (L.take (k + 1))).length - 1]? =
        some (rowOf L[k]) := by
      rw [← List.getLast?_eq_getElem?]; exact runKeys_last rowOf _ _ hlast
    rw [Buf.get_ok (a := rowOf L[k]) (by show _ < N; rw [runKeys_length]; omega) hkl, ok_bind]
    have hne : rowOf L[k] ≠ rowOf L[k + 1] := by
      intro h
      have := runKeys_same rowOf _ L[k+1] _ hlast h
      rw [← take_succ_eq hm] at this
      have := congrArg List.length this
      simp only [runKeys_length] at this
      omega
    rw [if_pos (by simpa [rowOf] using hne), runKeys_length, e1, addM_eq (by omega)]
    have : N - 1 + 1 = N := by omega
    rw [this]
    simp [Buf.put]
  · intro k
    have h1 : L.take 1 = [L[0]] := by
      have := take_succ_eq hpos
      simpa using this
    rw [h1]
    simp only [Buf.uninit]
    have : runKeys rowOf [L[0]] = [rowOf L[0]] := by simp [runKeys, runs, addRun, runKey]
    rw [this]
    cases k with
    | zero => rfl
    | succ k => simp

theorem crcsrBuild_large (es : List ε) (N : Nat) (hg : ∀ k, g k < M) (hM : es.length + 1 < M) (hne : es ≠ [])
    (hNM : N < M) (hN : (runKeys rowOf (sortTriplets es)).length ≤ N) :
    (crcsrBuild M (Buf.full (N + 1) g) es N : C (CrCsr T × List ε)) =
      if N = (runKeys rowOf (sortTriplets es)).length ∧ (∑ j ∈ Finset.range (N + 1), g j) % M = 0 then
        .ok (crcsrMemOf M g (sortTriplets es), sortTriplets es) else .error .assertion := by
  have hlenE := length_sortTriplets es true
  have hne' : sortTriplets es ≠ [] := by
    intro h; rw [h] at hlenE; simp at hlenE; exact hne (List.length_eq_zero_iff.1 hlenE.symm)
  have hs := sortTriplets_sorted es
  unfold crcsrBuild
  simp only
  generalize sortTriplets es = L at *
  have hpos : 0 < L.length := List.length_pos_iff.2 hne'
  have hKpos : 0 < (runKeys rowOf L).length := by rw [runKeys_length]; exact runs_length_pos _ hne'
  rw [rd_ok hpos, ok_bind, Buf.put_ok (by show 0 < N; omega), ok_bind]
  rw [crFill_gen M N g hg L hs L.length (Nat.le_refl _) (by rw [List.take_length]; exact hN) (by omega) hNM hpos (by omega) rfl]
  · rw [ok_bind]
    simp only
    rw [Nat.max_eq_left hpos, List.take_length, subM_eq (by omega) (by omega)]
    by_cases hK : N = (runKeys rowOf L).length
    · rw [cassert_ok (by simp [hK]), ok_bind, prefixSum_mod _ rfl (fun k => Nat.mod_lt _ (by omega)), ok_bind,
        Buf.get_full (by omega), ok_bind]
      have hrp : ∀ k, (∑ j ∈ Finset.range (k + 1), (g j + L.countP (fun e => rowRank L e + 1 == j)) % M) % M =
          ((∑ j ∈ Finset.range (k + 1), g j) + L.countP (fun e => decide (rowRank L e < k))) % M := by
        intro k
        rw [← Finset.sum_nat_mod, Finset.sum_add_distrib, sum_count]
      simp only [Nat.le_refl, if_true, hrp]
      have hall := countP_lt_all L (rowRank L) N (fun e he => by rw [hK]; exact (rowRank_lt L hs e he).1)
      rw [hall]
      by_cases h0 : (∑ j ∈ Finset.range (N + 1), g j) % M = 0
      · rw [if_pos ⟨hK, h0⟩, cassert_ok, ok_bind]
        · subst hK; simp only [crcsrMemOf]
        · rw [Nat.add_mod, h0, Nat.zero_add, Nat.mod_mod, Nat.mod_eq_of_lt (by omega)]; simp
      · rw [if_neg (fun h => h0 h.2)]
        have : ((∑ j ∈ Finset.range (N + 1), g j) + L.length) % M ≠ L.length := by
          intro h
          apply h0
          have h1 : (∑ j ∈ Finset.range (N + 1), g j) + L.length ≡ 0 + L.length [MOD M] := by
            show _ % M = _ % M
            rw [h, Nat.zero_add, Nat.mod_eq_of_lt (by omega)]
          have := Nat.ModEq.add_right_cancel' _ h1
          rw [this, Nat.zero_mod]
        simp [cassert, this]
    · rw [if_neg (fun h => hK h.1)]
      have : ¬ (runKeys rowOf L).length - 1 = N - 1 := by omega
      rw [runKeys_length] at this
      simp [cassert, this]
  · intro k
    have h1 : L.take 1 = [L[0]] := by
      have := take_succ_eq hpos
      simpa using this
    rw [h1]
    simp only [Buf.uninit]
    have : runKeys rowOf [L[0]] = [rowOf L[0]] := by simp [runKeys, runs, addRun, runKey]
    rw [this]
    cases k with
    | zero => rfl
    | succ k => simp

/-! ### The specification's counts -/

theorem runKeys_toFinset (es : List ε) : (runKeys rowOf es).toFinset = nonEmptyRows (ents es) := by
  ext k
  simp only [List.mem_toFinset, mem_runKeys, nonEmptyRows, List.mem_map, ents]
  constructor
  · rintro ⟨a, ha, rfl⟩; exact ⟨NZ.toEnt a, ⟨a, ha, rfl⟩, rfl⟩
  · rintro ⟨_, ⟨a, ha, rfl⟩, rfl⟩; exact ⟨a, ha, rfl⟩

theorem nonEmptyRows_perm {L L' : List (Ent T)} (h : L.Perm L') : nonEmptyRows L = nonEmptyRows L' := by
  ext k; simp [nonEmptyRows, h.mem_iff]

theorem runKeys_card (es : List ε) (hs : es.Pairwise (fun a b => rowOf a ≤ rowOf b)) :
    (runKeys rowOf es).length = (nonEmptyRows (ents es)).card := by
  rw [← runKeys_toFinset, List.toFinset_card_of_nodup]
  exact (runKeys_sorted rowOf es hs).imp (fun h => Nat.ne_of_lt h)

theorem rowRank_card (es : List ε) (hs : es.Pairwise (fun a b => rowOf a ≤ rowOf b)) (e : ε) :
    rowRank es e = ((nonEmptyRows (ents es)).filter (· < (NZ.toEnt e).row)).card := by
  have hnd : (runKeys rowOf es).Nodup := (runKeys_sorted rowOf es hs).imp (fun h => Nat.ne_of_lt h)
  have h : (nonEmptyRows (ents es)).filter (· < (NZ.toEnt e).row) =
      ((runKeys rowOf es).filter (fun k => decide (k < (NZ.toEnt e).row))).toFinset := by
    ext k; simp [← runKeys_toFinset]
  unfold rowRank
  rw [h, List.toFinset_card_of_nodup (hnd.filter _), List.countP_eq_length_filter]
  rfl

theorem countP_rowRank (es : List ε) (k : Nat) :
    (sortTriplets es).countP (fun e => decide (rowRank (sortTriplets es) e < k)) = entriesInFirstRows (ents es) k := by
  have hs := sortTriplets_sorted es
  have hp := ents_perm (sortTriplets_perm es true)
  unfold entriesInFirstRows
  rw [← nonEmptyRows_perm hp, ← hp.countP_eq]
  unfold ents
  rw [List.countP_map]
  refine List.countP_congr (fun e _ => ?_)
  simp [rowRank_card _ hs, ents]

theorem runKeys_map (es : List ε) : runKeys rowOf es = runKeys id ((ents es).map (·.row)) := by
  induction es using List.reverseRecOn with
  | nil => rfl
  | append_singleton l a ih =>
    have e : (ents (l ++ [a])).map (·.row) = (ents l).map (·.row) ++ [rowOf a] := by simp [ents, rowOf]
    have hl : ((ents l).map (·.row)).getLast? = l.getLast?.map rowOf := by
      simp [ents, List.getLast?_map, Function.comp_def]; rfl
    rw [e]
    cases hb : l.getLast? with
    | none =>
      rw [runKeys_new rowOf l a (by simp [hb]), runKeys_new id _ _ (by simp [hl, hb]), ih]; rfl
    | some b =>
      by_cases h : rowOf b = rowOf a
      · rw [runKeys_same rowOf l a b hb h, runKeys_same id _ (rowOf a) (rowOf b) (by rw [hl, hb]; rfl) h, ih]
      · rw [runKeys_new rowOf l a (by intro c hc; rw [hb] at hc; simp at hc; subst hc; exact h),
          runKeys_new id _ _ (by intro c hc; rw [hl, hb] at hc; simp at hc; subst hc; exact h), ih]; rfl

/-- Runs of equal values are distinct exactly when equal values stand together. -/
theorem nodup_runKeys_iff (l : List Nat) :
    (runKeys id l).Nodup ↔ ∀ l₁ r l₂ l₃, l = l₁ ++ r :: l₂ ++ r :: l₃ → ∀ c ∈ l₂, c = r := by
  induction l using List.reverseRecOn with
  | nil => simp [runKeys, runs]
  | append_singleton l a ih =>
    have hdown : (∀ l₁ r l₂ l₃, l ++ [a] = l₁ ++ r :: l₂ ++ r :: l₃ → ∀ c ∈ l₂, c = r) →
        ∀ l₁ r l₂ l₃, l = l₁ ++ r :: l₂ ++ r :: l₃ → ∀ c ∈ l₂, c = r := by
      intro h l₁ r l₂ l₃ e
      exact h l₁ r l₂ (l₃ ++ [a]) (by rw [e]; simp)
    have hsplit : ∀ l₁ r l₂ l₃, l ++ [a] = l₁ ++ r :: l₂ ++ r :: l₃ →
        (r = a ∧ l = l₁ ++ r :: l₂) ∨ ∃ l₃', l = l₁ ++ r :: l₂ ++ r :: l₃' := by
      intro l₁ r l₂ l₃ e
      rcases List.eq_nil_or_concat l₃ with rfl | ⟨t, b, rfl⟩
      · have := List.append_inj' e rfl
        exact Or.inl ⟨by simpa using this.2.symm, this.1⟩
      · rw [List.concat_eq_append] at e
        have e' : l ++ [a] = (l₁ ++ r :: l₂ ++ r :: t) ++ [b] := by rw [e]; simp
        exact Or.inr ⟨t, (List.append_inj' e' rfl).1⟩
    cases hb : l.getLast? with
    | none =>
      have : l = [] := List.getLast?_eq_none_iff.1 hb
      subst this
      constructor
      · intro _ l₁ r l₂ l₃ e
        have := congrArg List.length e
        simp at this
        omega
      · intro _; simp [runKeys, runs, addRun, runKey]
    | some b =>
      obtain ⟨l0, hl0⟩ := List.getLast?_eq_some_iff.1 hb
      by_cases h : b = a
      · subst h
        rw [runKeys_same id l b b hb rfl, ih]
        refine ⟨fun H l₁ r l₂ l₃ e => ?_, hdown⟩
        rcases hsplit _ _ _ _ e with ⟨rfl, e'⟩ | ⟨t, e'⟩
        · rcases List.eq_nil_or_concat l₂ with rfl | ⟨t, d, rfl⟩
          · intro c hc; simp at hc
          · have e2 : l0 ++ [r] = (l₁ ++ r :: t) ++ [d] := by rw [← hl0, e']; simp
            have := List.append_inj' e2 rfl
            have hd : r = d := by simpa using this.2
            subst hd
            intro c hc
            simp only [List.concat_eq_append, List.mem_append, List.mem_singleton] at hc
            rcases hc with hc | hc
            · exact H l₁ r t [] (by rw [hl0, this.1]) c hc
            · exact hc
        · exact H _ _ _ _ e'
      · rw [runKeys_new id l a (by intro c hc; rw [hb] at hc; simp at hc; subst hc; exact h), List.nodup_append]
        simp only [id]
        constructor
        · rintro ⟨h1, -, h3⟩ l₁ r l₂ l₃ e
          rcases hsplit _ _ _ _ e with ⟨rfl, e'⟩ | ⟨t, e'⟩
          · exact absurd rfl (h3 r ((mem_runKeys id l r).2 ⟨r, by rw [e']; simp, rfl⟩) r (by simp))
          · exact (ih.1 h1) _ _ _ _ e'
        · intro H
          refine ⟨ih.2 (hdown H), by simp, ?_⟩
          intro k hk c hc hkc
          simp at hc
          subst hkc hc
          obtain ⟨c, hc, rfl⟩ := (mem_runKeys id l k).1 hk
          simp only [id] at *
          obtain ⟨s, t, e⟩ := List.append_of_mem hc
          have := H s c t [] (by rw [e])
          rcases List.eq_nil_or_concat t with rfl | ⟨t, d, rfl⟩
          · have e2 : l0 ++ [b] = s ++ [c] := by rw [← hl0, e]
            have := List.append_inj' e2 rfl
            exact h (by simpa using this.2)
          · have e2 : l0 ++ [b] = (s ++ c :: t) ++ [d] := by rw [← hl0, e]; simp
            have e3 := List.append_inj' e2 rfl
            have : d = c := this d (by simp)
            exact h (by rw [← this]; simpa using e3.2)

theorem contiguous_iff (es : List ε) : RowsContiguous (ents es) ↔ (runKeys rowOf es).Nodup := by
  rw [runKeys_map, nodup_runKeys_iff]; rfl

theorem runKeys_ge (es : List ε) : (nonEmptyRows (ents es)).card ≤ (runKeys rowOf es).length ∧
    ((nonEmptyRows (ents es)).card = (runKeys rowOf es).length ↔ RowsContiguous (ents es)) := by
  rw [contiguous_iff, ← runKeys_toFinset]
  refine ⟨List.toFinset_card_le _, ?_⟩
  constructor
  · intro h
    have h2 : (runKeys rowOf es).dedup.length = (runKeys rowOf es).length := by
      rw [← List.card_toFinset]; exact h
    have := (List.dedup_sublist (runKeys rowOf es)).eq_of_length h2
    rw [← this]; exact List.nodup_dedup _
  · intro h; exact List.toFinset_card_of_nodup h

end Gsb
