import Verif.Model.BlockUtil
import Verif.Spec.Blocks
import Verif.Proof.Runs
namespace Gsb
variable {T : Type}

theorem upperBound_spec (off : List Nat) (v size : Nat) (hsz : size ≤ off.length)
    (hs : (off.take size).Pairwise (· ≤ ·)) (first len : Nat) (hle : first + len ≤ size)
    (h1 : first ≤ (off.take size).countP (fun o => decide (o < v + 1)))
    (h2 : (off.take size).countP (fun o => decide (o < v + 1)) ≤ first + len) :
    upperBound off v first len = .ok ((off.take size).countP (fun o => decide (o < v + 1))) := by
  induction len using Nat.strongRecOn generalizing first with
  | _ len ih =>
    unfold upperBound
    split
    · next h0 => subst h0; congr 1; omega
    · next h0 =>
      have hm : first + len / 2 < off.length := by omega
      have hm' : first + len / 2 < (off.take size).length := by simp; omega
      rw [rd_ok hm, ok_bind]
      have key := getElem_lt_iff (off.take size) id hs (v + 1) (first + len / 2) hm'
      simp only [id, List.getElem_take] at key
      split
      · next hv =>
        have : ¬ off[first + len / 2] < v + 1 := by omega
        have := mt key.2 this
        exact ih (len / 2) (by omega) first (by omega) h1 (by omega)
      · next hv =>
        have := key.1 (by omega)
        exact ih (len - len / 2 - 1) (by omega) (first + len / 2 + 1) (by omega) (by omega) (by omega)

/-- The block containing `v`, as `index_to_blockindex` computes it. -/
def bidx (off : List Nat) (n v : Nat) : Nat := (off.take n).countP (fun o => decide (o < v + 1)) - 1

/-- `offset[i]`. -/
def offF (off : List Nat) (i : Nat) : Nat := off[i]?.getD 0

theorem offF_eq {off : List Nat} {i : Nat} (h : i < off.length) : offF off i = off[i] := by
  simp [offF, h]

theorem rd_off {off : List Nat} {i : Nat} (h : i < off.length) : rd off i = .ok (offF off i) := by
  rw [rd_ok h, offF_eq h]

section
variable {off : List Nat} {n total : Nat} (P : Partition off n total)
include P

theorem Partition.mono {i j : Nat} (hij : i ≤ j) (hj : j ≤ n) : offF off i ≤ offF off j := by
  have := P.len
  rw [offF_eq (by omega), offF_eq (by omega)]
  rcases Nat.lt_or_ge i j with h | h
  · exact List.pairwise_iff_getElem.1 P.sorted i j (by omega) (by omega) h
  · have : i = j := by omega
    subst this; exact Nat.le_refl _

theorem Partition.at_zero : offF off 0 = 0 := by simp [offF, P.first]
theorem Partition.at_last : offF off n = total := by simp [offF, P.last]

theorem Partition.le_total {i : Nat} (hi : i ≤ n) : offF off i ≤ total := by
  rw [← P.at_last]; exact P.mono hi (Nat.le_refl _)

theorem Partition.pos {v : Nat} (hv : v < total) : 0 < n := by
  rcases Nat.eq_zero_or_pos n with h | h
  · subst h
    have := P.first; rw [P.last] at this; simp at this; omega
  · exact h

theorem Partition.cnt_pos {v : Nat} (hv : v < total) :
    0 < (off.take n).countP (fun o => decide (o < v + 1)) := by
  have hn := P.pos hv
  have hl := P.len
  rw [List.countP_pos_iff]
  have h0 : off[0]'(by omega) = 0 := by
    have := P.first; rw [List.getElem?_eq_getElem (by omega)] at this; simpa using this
  refine ⟨off[0]'(by omega), ?_, by simp [h0]⟩
  rw [List.mem_take_iff_getElem]
  exact ⟨0, by omega, rfl⟩

theorem Partition.bidx_lt {v : Nat} (hv : v < total) : bidx off n v < n := by
  have := P.cnt_pos hv
  have h2 := List.countP_le_length (p := fun o => decide (o < v + 1)) (l := off.take n)
  have h3 := P.len
  simp at h2
  unfold bidx; omega

theorem Partition.sortedTake : (off.take n).Pairwise (· ≤ ·) := P.sorted.sublist (List.take_sublist _ _)

theorem Partition.bidx_lo {v : Nat} (hv : v < total) : offF off (bidx off n v) ≤ v := by
  have hlt := P.bidx_lt hv
  have hl := P.len
  have hc := P.cnt_pos hv
  have hlen : bidx off n v < (off.take n).length := by simp; omega
  have := (getElem_lt_iff (off.take n) id P.sortedTake (v + 1) (bidx off n v) hlen).2 (by
    simp only [id]; unfold bidx; omega)
  simp only [id, List.getElem_take] at this
  rw [offF_eq (by omega)]; omega

theorem Partition.bidx_hi {v : Nat} (hv : v < total) : v < offF off (bidx off n v + 1) := by
  have hlt := P.bidx_lt hv
  have hl := P.len
  have hc := P.cnt_pos hv
  by_cases hn : bidx off n v + 1 = n
  · rw [hn, P.at_last]; exact hv
  · have hlen : bidx off n v + 1 < (off.take n).length := by simp; omega
    have := mt (getElem_lt_iff (off.take n) id P.sortedTake (v + 1) (bidx off n v + 1) hlen).1 (by
      simp only [id]; unfold bidx; omega)
    simp only [id, List.getElem_take] at this
    rw [offF_eq (by omega)]; omega

omit P in
theorem bidx_mono {off : List Nat} {n : Nat} {v w : Nat} (h : v ≤ w) : bidx off n v ≤ bidx off n w := by
  unfold bidx
  have : (off.take n).countP (fun o => decide (o < v + 1)) ≤ (off.take n).countP (fun o => decide (o < w + 1)) :=
    List.countP_mono_left (by intro a _ h'; simp at *; omega)
  omega

theorem Partition.bidx_ok {M v : Nat} (hM : n < M) (hv : v < total) :
    indexToBlockindex M off n v = .ok (bidx off n v) := by
  unfold indexToBlockindex
  have hl := P.len
  have hc := P.cnt_pos hv
  have h2 := List.countP_le_length (p := fun o => decide (o < v + 1)) (l := off.take n)
  have h3 : (off.take n).length = n := by simp; omega
  rw [upperBound_spec off v n (by omega) P.sortedTake 0 n (by omega) (Nat.zero_le _) (by omega), ok_bind,
    subM_eq (by omega) (by omega)]
  rfl

end

/-- The block id of a coordinate. -/
def blockKey (offR : List Nat) (blockrows : Nat) (offC : List Nat) (blockcols : Nat) (r c : Nat) : Nat :=
  bidx offR blockrows r * blockcols + bidx offC blockcols c

theorem mapM_ok {α β : Type} (l : List α) (f : α → C β) (g : α → β) (h : ∀ a ∈ l, f a = .ok (g a)) :
    l.mapM f = .ok (l.map g) := by
  induction l with
  | nil => rfl
  | cons a l ih =>
    rw [List.mapM_cons, h a (by simp), ok_bind, ih (fun b hb => h b (List.mem_cons_of_mem _ hb)), ok_bind]
    rfl

theorem key_lt {a b i j : Nat} (hi : i < a) (hj : j < b) : i * b + j < a * b := by
  calc i * b + j < i * b + b := by omega
    _ = (i + 1) * b := by rw [Nat.add_mul]; omega
    _ ≤ a * b := Nat.mul_le_mul_right _ hi

theorem key_div {b i j : Nat} (hj : j < b) : (i * b + j) / b = i := by
  rw [Nat.mul_comm, Nat.mul_add_div (by omega), Nat.div_eq_of_lt hj]; omega

theorem key_mod {b i j : Nat} (hj : j < b) : (i * b + j) % b = j := by
  rw [Nat.mul_comm, Nat.mul_add_mod, Nat.mod_eq_of_lt hj]

/-- The element with the block id of its coordinate. -/
def withKey (K : Nat → Nat → Nat) (e : Element T) : Element T := { e with block := K e.row e.col }

theorem calculateBlockId_spec {M : Nat} {es : List (Element T)} {offR offC : List Nat}
    {blockrows blockcols rows columns : Nat} (PR : Partition offR blockrows rows)
    (PC : Partition offC blockcols columns) (hR : blockrows < M) (hC : blockcols < M)
    (hK : blockrows * blockcols ≤ M) (hin : InRange (ents es) rows columns) :
    calculateBlockId M es offR blockrows offC blockcols =
      .ok (es.map (withKey (blockKey offR blockrows offC blockcols))) := by
  unfold calculateBlockId
  refine mapM_ok _ _ _ (fun e he => ?_)
  have hr := hin _ (List.mem_map_of_mem he)
  have hr1 : e.row < rows := hr.1
  have hr2 : e.col < columns := hr.2
  have h1 := PR.bidx_lt hr1
  have h2 := PC.bidx_lt hr2
  have h3 := key_lt h1 h2
  rw [PR.bidx_ok hR hr1, ok_bind, PC.bidx_ok hC hr2, ok_bind, mulM_eq (by omega), addM_eq (by omega)]
  rfl

theorem calculateBlockIdConst_spec {M : Nat} {es : List (Element T)}
    {bs1 bs2 blockrows blockcols : Nat} (h1 : 0 < bs1) (h2 : 0 < bs2)
    (hK : blockrows * blockcols ≤ M)
    (hin : ∀ e ∈ es, e.row / bs1 < blockrows ∧ e.col / bs2 < blockcols) :
    calculateBlockIdConst M es bs1 bs2 blockcols =
      .ok (es.map (withKey (fun r c => r / bs1 * blockcols + c / bs2))) := by
  unfold calculateBlockIdConst
  refine mapM_ok _ _ _ (fun e he => ?_)
  have := hin e he
  have h3 := key_lt this.1 this.2
  rw [cdiv_ok h1, ok_bind, cdiv_ok h2, ok_bind, mulM_eq (Nat.lt_of_lt_of_le
      (Nat.lt_of_le_of_lt (Nat.le_add_right _ _) h3) hK), addM_eq (Nat.lt_of_lt_of_le h3 hK)]
  rfl

theorem leOf_ltBlocks (a b : Element T) : leOf ltBlocks a b =
    decide (a.block < b.block ∨ a.block = b.block ∧ (a.row < b.row ∨ a.row = b.row ∧ a.col ≤ b.col)) := by
  rw [Bool.eq_iff_iff]
  simp only [leOf, ltBlocks, Bool.not_eq_true', Bool.or_eq_false_iff, Bool.and_eq_false_iff,
    decide_eq_false_iff_not, beq_eq_false_iff_ne, decide_eq_true_eq]
  omega

theorem totalPre_blocks : TotalPre (leOf (ltBlocks (T := T))) := by
  refine ⟨fun a b c => ?_, fun a b => ?_⟩ <;> simp only [leOf_ltBlocks, Bool.or_eq_true,
    decide_eq_true_eq] <;> omega

theorem sortBlocks_perm (es : List (Element T)) : (sortElementsBlocks es).Perm es :=
  List.mergeSort_perm _ _

theorem sortBlocks_sorted (es : List (Element T)) :
    (sortElementsBlocks es).Pairwise (fun a b => a.block < b.block ∨ a.block = b.block ∧
      (a.row < b.row ∨ a.row = b.row ∧ a.col ≤ b.col)) := by
  have := List.pairwise_mergeSort (totalPre_blocks (T := T)).trans totalPre_blocks.total es
  refine List.Pairwise.imp ?_ this
  intro a b h
  rw [leOf_ltBlocks] at h
  simpa using h

/-- After block ids given by `K` and the block sort, in-order accumulation is exact, provided that
within a row `K` does not decrease with the column. -/
theorem sortBlocks_exact [Add T] [Mul T] (K : Nat → Nat → Nat) (es : List (Element T))
    (hK : ∀ a ∈ es, ∀ b ∈ es, a.row = b.row → a.col ≤ b.col → K a.row a.col ≤ K b.row b.col)
    (x y : Nat → T) :
    spmvInOrder (ents (sortElementsBlocks (es.map (withKey K)))) x y = spmvExact (ents es) x y := by
  have e : ents (sortElementsBlocks (es.map (withKey K))) = (ents es).mergeSort
      (fun a b => decide (K a.row a.col < K b.row b.col ∨ K a.row a.col = K b.row b.col ∧
        (a.row < b.row ∨ a.row = b.row ∧ a.col ≤ b.col))) := by
    have h1 : ents es = ents (es.map (withKey K)) := by
      simp only [ents, List.map_map]; rfl
    rw [h1]
    unfold ents sortElementsBlocks pssSort
    refine List.map_mergeSort (fun a ha b hb => ?_)
    obtain ⟨a', _, rfl⟩ := List.mem_map.1 ha
    obtain ⟨b', _, rfl⟩ := List.mem_map.1 hb
    rw [leOf_ltBlocks]; rfl
  rw [e]
  refine spmvInOrder_mergeSort ⟨fun a b c => ?_, fun a b => ?_⟩ _ (fun a ha b hb h => ?_) x y
  · simp only [decide_eq_true_eq]; omega
  · simp only [Bool.or_eq_true, decide_eq_true_eq]; omega
  · obtain ⟨a', ha', rfl⟩ := List.mem_map.1 ha
    obtain ⟨b', hb', rfl⟩ := List.mem_map.1 hb
    have k1 := hK a' ha' b' hb' h
    have k2 := hK b' hb' a' ha' h.symm
    have h' : a'.row = b'.row := h
    simp only [decide_eq_decide]
    show K a'.row a'.col < K b'.row b'.col ∨ K a'.row a'.col = K b'.row b'.col ∧
        (a'.row < b'.row ∨ a'.row = b'.row ∧ a'.col ≤ b'.col) ↔ a'.col ≤ b'.col
    constructor
    · intro hh
      rcases hh with hh | ⟨hh, h2 | h2⟩
      · by_contra hc
        have := k2 (by omega)
        omega
      · omega
      · exact h2.2
    · intro hc
      have := k1 hc
      omega

theorem blockKey_mono {offR : List Nat} {blockrows : Nat} {offC : List Nat} {blockcols r : Nat} {c c' : Nat}
    (h : c ≤ c') : blockKey offR blockrows offC blockcols r c ≤ blockKey offR blockrows offC blockcols r c' := by
  unfold blockKey
  have := bidx_mono (off := offC) (n := blockcols) h
  omega

/-- `count_blocks` on a block-sorted array. -/
theorem countBlocks_spec (M : Nat) (es : List (Element T)) (hne : es ≠ []) (hM : es.length < M)
    (hs : es.Pairwise (fun a b => a.block ≤ b.block)) :
    countBlocks M es = .ok (runs Element.block es).length := by
  have hpos : 0 < es.length := List.length_pos_iff.2 hne
  unfold countBlocks
  rw [rd_ok hpos, ok_bind]
  have h1 : es.take 1 = [es[0]] := by simpa using take_succ_eq hpos
  have hr1 : (runs Element.block (es.take 1)).length = 1 := by rw [h1]; simp [runs, addRun]
  rw [forLoop_closed' (fun i => ((runs Element.block (es.take (max i 1))).length,
    ((es.take (max i 1)).getLast?.map Element.block).getD 0)) (Nat.zero_le _) ?_ rfl]
  · rw [ok_bind]; simp only
    rw [Nat.max_eq_left hpos, List.take_length]
  · intro i _ hi
    rw [rd_ok hi, ok_bind]
    simp only
    rw [Nat.max_eq_left (show 1 ≤ i + 1 by omega), getLast?_take hi]
    rcases Nat.eq_zero_or_pos i with h0 | hp
    · subst h0
      simp only [Nat.max_eq_right (Nat.zero_le 1), Nat.zero_add]
      rw [h1]; simp
    · obtain ⟨k, rfl⟩ : ∃ k, i = k + 1 := ⟨i - 1, by omega⟩
      have hk : k < es.length := by omega
      have hlast := getLast?_take (l := es) hk
      have hle : es[k].block ≤ es[k+1].block := List.pairwise_iff_getElem.1 hs k (k+1) hk hi (by omega)
      rw [Nat.max_eq_left (show 1 ≤ k + 1 by omega), hlast]
      simp only [Option.map_some, Option.getD_some]
      by_cases hsame : es[k].block = es[k+1].block
      · rw [if_neg (by omega)]
        obtain ⟨G0, g, e1, e2, -, -⟩ := runs_same Element.block _ es[k+1] _ hlast hsame
        rw [take_succ_eq hi, e1, e2]; simp [hsame]
      · rw [if_pos (by omega), take_succ_eq hi, runs_new Element.block _ es[k+1] (by
          intro b hb; rw [hlast] at hb; simp at hb; subst hb; exact hsame)]
        have h2 := runs_length_le Element.block (es.take (k + 1))
        have h3 : (es.take (k+1)).length = k + 1 := by simp; omega
        rw [addM_eq (by omega)]; simp
  · simp only [Nat.max_eq_right (Nat.zero_le 1)]
    rw [hr1, h1]; simp

end Gsb
