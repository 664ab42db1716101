import Verif.Props.AnyPartition
/-
C88, the product: offsets that do not start at 0.
-/
namespace Gsb
variable {T : Type}

/-- `n + 1` weakly increasing offsets that end at `total`; the first need not be 0. -/
structure Offsets (off : List Nat) (n total : Nat) : Prop where
  len : off.length = n + 1
  last : off[n]? = some total
  sorted : off.Pairwise (· ≤ ·)

section
variable {off : List Nat} {n total : Nat} (P : Offsets off n total)
include P

theorem Offsets.mono {i j : Nat} (hij : i ≤ j) (hj : j ≤ n) : offF off i ≤ offF off j := by
  have := P.len
  rw [offF_eq (by omega), offF_eq (by omega)]
  rcases Nat.lt_or_ge i j with h | h
  · exact List.pairwise_iff_getElem.1 P.sorted i j (by omega) (by omega) h
  · have : i = j := by omega
    subst this; exact Nat.le_refl _

theorem Offsets.at_last : offF off n = total := by simp [offF, P.last]

theorem Offsets.le_total {i : Nat} (hi : i ≤ n) : offF off i ≤ total := by
  rw [← P.at_last]; exact P.mono hi (Nat.le_refl _)

theorem Offsets.rd_ok (i : Nat) (hi : i ≤ n) : rd off i = .ok (offF off i) := rd_off (by have := P.len; omega)

theorem Offsets.pos {v : Nat} (h0 : offF off 0 ≤ v) (hv : v < total) : 0 < n := by
  rcases Nat.eq_zero_or_pos n with h | h
  · subst h
    rw [P.at_last] at h0; omega
  · exact h

theorem Offsets.cnt_pos {v : Nat} (h0 : offF off 0 ≤ v) (hv : v < total) : 0 < (off.take n).countP (fun o => decide (o < v + 1)) := by
  have hn := P.pos h0 hv
  have hl := P.len
  rw [List.countP_pos_iff]
  rw [offF_eq (by omega)] at h0
  refine ⟨off[0]'(by omega), ?_, by simp; omega⟩
  rw [List.mem_take_iff_getElem]
  exact ⟨0, by omega, rfl⟩

theorem Offsets.bidx_lt {v : Nat} (h0 : offF off 0 ≤ v) (hv : v < total) : bidx off n v < n := by
  have := P.cnt_pos h0 hv
  have h2 := List.countP_le_length (p := fun o => decide (o < v + 1)) (l := off.take n)
  have h3 := P.len
  simp at h2
  unfold bidx; omega

theorem Offsets.sortedTake : (off.take n).Pairwise (· ≤ ·) := P.sorted.sublist (List.take_sublist _ _)

theorem Offsets.bidx_lo {v : Nat} (h0 : offF off 0 ≤ v) (hv : v < total) : offF off (bidx off n v) ≤ v := by
  have hlt := P.bidx_lt h0 hv
  have hl := P.len
  have hc := P.cnt_pos h0 hv
  have hlen : bidx off n v < (off.take n).length := by simp; omega
  have := (getElem_lt_iff (off.take n) id P.sortedTake (v + 1) (bidx off n v) hlen).2 (by
    simp only [id]; unfold bidx; omega)
  simp only [id, List.getElem_take] at this
  rw [offF_eq (by omega)]; omega

theorem Offsets.bidx_hi {v : Nat} (h0 : offF off 0 ≤ v) (hv : v < total) : v < offF off (bidx off n v + 1) := by
  have hlt := P.bidx_lt h0 hv
  have hl := P.len
  have hc := P.cnt_pos h0 hv
  by_cases hn : bidx off n v + 1 = n
  · rw [hn, P.at_last]; exact hv
  · have hlen : bidx off n v + 1 < (off.take n).length := by simp; omega
    have := mt (getElem_lt_iff (off.take n) id P.sortedTake (v + 1) (bidx off n v + 1) hlen).1 (by
      simp only [id]; unfold bidx; omega)
    simp only [id, List.getElem_take] at this
    rw [offF_eq (by omega)]; omega

theorem Offsets.bidx_ok {M v : Nat} (hM : n < M) (h0 : offF off 0 ≤ v) (hv : v < total) :
    indexToBlockindex M off n v = .ok (bidx off n v) := by
  unfold indexToBlockindex
  have hl := P.len
  have hc := P.cnt_pos h0 hv
  have h2 := List.countP_le_length (p := fun o => decide (o < v + 1)) (l := off.take n)
  have h3 : (off.take n).length = n := by simp; omega
  rw [upperBound_spec off v n (by omega) P.sortedTake 0 n (by omega) (Nat.zero_le _) (by omega), ok_bind,
    subM_eq (by omega) (by omega)]
  rfl

/-- An index in a block is at or after the first offset and before the end. -/
theorem Offsets.of_inSomeBlock {v : Nat} (h : InSomeBlock off v) : offF off 0 ≤ v ∧ v < total := by
  obtain ⟨i, lo, hi, h1, h2, h3, h4⟩ := h
  have hl := P.len
  have hi' : i + 1 < off.length := (List.getElem?_eq_some_iff.1 h2).1
  have e1 : offF off i = lo := by simp [offF, h1]
  have e2 : offF off (i + 1) = hi := by simp [offF, h2]
  have m1 := P.mono (Nat.zero_le i) (by omega)
  have m2 := P.le_total (i := i + 1) (by omega)
  omega

end

/-- Every entry is at or after the first offsets and inside the matrix. -/
def From (offR offC : List Nat) (rows columns : Nat) (es : List (Ent T)) : Prop :=
  ∀ e ∈ es, (offF offR 0 ≤ e.row ∧ e.row < rows) ∧ (offF offC 0 ≤ e.col ∧ e.col < columns)

theorem calculateBlockId_from {M : Nat} {es : List (Element T)} {offR offC : List Nat}
    {blockrows blockcols rows columns : Nat} (PR : Offsets offR blockrows rows)
    (PC : Offsets offC blockcols columns) (hR : blockrows < M) (hC : blockcols < M)
    (hK : blockrows * blockcols ≤ M) (hin : From offR offC rows columns (ents es)) :
    calculateBlockId M es offR blockrows offC blockcols =
      .ok (es.map (withKey (blockKey offR blockrows offC blockcols))) := by
  unfold calculateBlockId
  refine mapM_ok _ _ _ (fun e he => ?_)
  obtain ⟨⟨r0, hr1⟩, ⟨c0, hr2⟩⟩ := hin _ (List.mem_map_of_mem he)
  replace r0 : offF offR 0 ≤ e.row := r0
  replace c0 : offF offC 0 ≤ e.col := c0
  replace hr1 : e.row < rows := hr1
  replace hr2 : e.col < columns := hr2
  have h1 := PR.bidx_lt r0 hr1
  have h2 := PC.bidx_lt c0 hr2
  have h3 := key_lt h1 h2
  rw [PR.bidx_ok hR r0 hr1, ok_bind, PC.bidx_ok hC c0 hr2, ok_bind, mulM_eq (by omega), addM_eq (by omega)]
  rfl

theorem prepared_blkIn_from {M rows columns blockrows blockcols : Nat} {offR offC : List Nat} {es : List (Element T)}
    (PR : Offsets offR blockrows rows) (PC : Offsets offC blockcols columns)
    (hne : es ≠ []) (hlen : es.length < M) (hgrid : blockrows * blockcols < M) (hrows : rows + 1 < M)
    (hcols : columns < M) (hbr : blockrows ≤ rows) (hbc : blockcols < M) (hin : From offR offC rows columns (ents es)) :
    BlkIn M (offF offR) (offF offC) blockrows blockcols (prepared offR blockrows offC blockcols es) := by
  have hmem : ∀ e ∈ prepared offR blockrows offC blockcols es,
      e.block = bidx offR blockrows e.row * blockcols + bidx offC blockcols e.col ∧
      (offF offR 0 ≤ e.row ∧ e.row < rows) ∧ (offF offC 0 ≤ e.col ∧ e.col < columns) := by
    intro e he
    obtain ⟨h1, h2⟩ := mem_prepared he
    exact ⟨h1, hin _ h2⟩
  have hbcp : 0 < blockcols := by
    obtain ⟨e, he⟩ := List.exists_mem_of_ne_nil es hne
    have := (hin _ (List.mem_map_of_mem (f := NZ.toEnt) he)).2
    exact PC.pos this.1 this.2
  have hdiv : ∀ e ∈ prepared offR blockrows offC blockcols es, e.block / blockcols = bidx offR blockrows e.row := by
    intro e he
    obtain ⟨h1, h2, h3⟩ := hmem e he
    rw [h1, key_div (PC.bidx_lt h3.1 h3.2)]
  have hmod : ∀ e ∈ prepared offR blockrows offC blockcols es, e.block % blockcols = bidx offC blockcols e.col := by
    intro e he
    obtain ⟨h1, h2, h3⟩ := hmem e he
    rw [h1, key_mod (PC.bidx_lt h3.1 h3.2)]
  refine ⟨?_, by rw [prepared_length]; exact hlen, hbcp, ?_, ?_, ?_, ?_, ?_, ?_, by omega, hbc, ?_, ?_⟩
  · intro h
    have := prepared_length (offR := offR) (blockrows := blockrows) (offC := offC) (blockcols := blockcols) (es := es)
    rw [h] at this
    simp at this
    exact hne (List.length_eq_zero_iff.1 this.symm)
  · intro e he
    obtain ⟨h1, h2, h3⟩ := hmem e he
    have := key_lt (PR.bidx_lt h2.1 h2.2) (PC.bidx_lt h3.1 h3.2)
    omega
  · intro e he
    obtain ⟨h1, h2, h3⟩ := hmem e he
    rw [hdiv e he]; exact PR.bidx_lt h2.1 h2.2
  · intro e he
    obtain ⟨h1, h2, h3⟩ := hmem e he
    rw [hdiv e he]; exact ⟨PR.bidx_lo h2.1 h2.2, PR.bidx_hi h2.1 h2.2⟩
  · intro e he
    obtain ⟨h1, h2, h3⟩ := hmem e he
    rw [hmod e he]; exact ⟨PC.bidx_lo h3.1 h3.2, PC.bidx_hi h3.1 h3.2⟩
  · intro e he
    obtain ⟨h1, h2, h3⟩ := hmem e he
    rw [hdiv e he]
    have := PR.le_total (i := bidx offR blockrows e.row + 1) (PR.bidx_lt h2.1 h2.2)
    omega
  · intro e he
    obtain ⟨h1, h2, h3⟩ := hmem e he
    rw [hmod e he]
    have := PC.le_total (i := bidx offC blockcols e.col + 1) (PC.bidx_lt h3.1 h3.2)
    omega
  · exact (sortBlocks_sorted _).imp (fun h => by omega)
  · exact (sortBlocks_sorted _).imp (fun h => by omega)

theorem Checked.from {offR offC : List Nat} {rows columns blockrows blockcols : Nat} {es : List (Ent T)}
    (PR : Offsets offR blockrows rows) (PC : Offsets offC blockcols columns) (h : Checked offR blockrows rows offC blockcols columns es) :
    From offR offC rows columns es :=
  fun e he => ⟨PR.of_inSomeBlock (h.inBlock e he).1, PC.of_inSomeBlock (h.inBlock e he).2⟩

theorem Offsets.lt {off : List Nat} {n total M : Nat} (P : Offsets off n total) (h : total < M) : ∀ a ∈ off, a < M := by
  intro a ha
  obtain ⟨i, hi, rfl⟩ := List.mem_iff_getElem.1 ha
  have := P.le_total (i := i) (by have := P.len; omega)
  rw [offF_eq hi] at this
  omega

theorem ne_of_countBlocks {M n : Nat} {es es1 : List (Element T)} (h : countBlocks M (sortElementsBlocks es1) = .ok n)
    (he : ents es1 = ents es) : es ≠ [] := by
  unfold countBlocks at h
  obtain ⟨e0, h0, -⟩ := bind_ok h
  have h1 := (List.getElem?_eq_some_iff.1 (rd_lt h0)).1
  have h2 : (sortElementsBlocks es1).length = es1.length := (List.mergeSort_perm _ _).length_eq
  have h3 := congrArg List.length he
  simp only [ents, List.length_map] at h3
  rintro rfl
  rw [List.length_nil] at h3
  omega

/-- **C88**, the product of a CSBR matrix built with weakly increasing offsets that may start late: if the conversion returned, the
product is the exact one. -/
theorem C88_csbr_product [Add T] [Mul T] [Zero T] (M workers rows columns : Nat) (es : List (Element T))
    (offR : List Nat) (blockrows : Nat) (offC : List Nat) (blockcols : Nat)
    (PR : Offsets offR blockrows rows) (PC : Offsets offC blockcols columns)
    (hw : 0 < workers) (hlen : es.length < M) (hgrid : blockrows * blockcols < M) (hrows : rows + 1 < M) (hcols : columns + 1 < M)
    (A : Csbr T) (es' : List (Element T)) (h : cooToCsbr M workers es rows columns offR blockrows offC blockcols = .ok (A, es'))
    (nx ny : Nat) (hnx : columns ≤ nx) (hny : rows ≤ ny) (x y : Nat → T) :
    A.spmv M (Buf.full nx x) (Buf.full ny y) = .ok (Buf.full ny (spmvExact (ents es) x y)) := by
  obtain ⟨hne, b1, b2⟩ : es ≠ [] ∧ blockrows ≤ rows ∧ blockcols ≤ columns := by
    have h' := h
    obtain ⟨es1, h1, h'⟩ := bind_ok h'
    obtain ⟨A, h2, -⟩ := bind_ok h'
    unfold csbrBuild at h2
    obtain ⟨n, hn, h2⟩ := bind_ok h2
    obtain ⟨_, h4, h2⟩ := bind_ok h2
    obtain ⟨a, b, -, -⟩ := checkPartition_inv h4
    exact ⟨ne_of_countBlocks hn (calculateBlockId_ents h1), a, b⟩
  have hin := (C88_csbr M workers rows columns es offR blockrows offC blockcols (by have := PR.len; omega) (by have := PC.len; omega)
    (PR.lt (by omega)) (PC.lt (by omega)) _ h).from PR PC
  have H := prepared_blkIn_from (M := M) PR PC hne hlen hgrid hrows (by omega) b1 (by omega) hin
  obtain ⟨P, hP, -⟩ := csbr_partition (rows := rows) (columns := columns) (offR := offR) (offC := offC) hw H
  unfold cooToCsbr at h
  rw [calculateBlockId_from PR PC (by omega) (by omega) (by omega) hin, ok_bind] at h
  have e := csbrBuild_ok (workers := workers) H b1 b2 (fun i hi => PR.rd_ok i hi) (fun i hi => PC.rd_ok i hi)
    PR.at_last PC.at_last P hP
  unfold prepared at e
  simp only at h
  rw [e, ok_bind] at h
  cases h
  have hs := csbr_spmv H (columns := columns) (fun i hi => PR.rd_ok i hi) (fun i hi => PC.rd_ok i hi)
    (fun i hi => PR.mono (Nat.le_succ i) hi) PR.at_last nx ny (fun e he => by
      have := (hin _ (mem_prepared he).2).2.2; simp only at this; omega) hny x y P
  rw [prepared_exact] at hs
  exact hs

/-- **C88**, the product of a CSBR2 matrix. -/
theorem C88_csbr2_product [Add T] [Mul T] (M rows columns : Nat) (es : List (Element T))
    (offR : List Nat) (blockrows : Nat) (offC : List Nat) (blockcols : Nat)
    (PR : Offsets offR blockrows rows) (PC : Offsets offC blockcols columns)
    (hlen : es.length < M) (hgrid : blockrows * blockcols < M) (hrows : rows + 1 < M) (hcols : columns + 1 < M)
    (A : Csbr2 T) (es' : List (Element T)) (h : cooToCsbr2 M es rows columns offR blockrows offC blockcols = .ok (A, es'))
    (nx ny : Nat) (hnx : columns ≤ nx) (hny : rows ≤ ny) (x y : Nat → T) :
    A.spmv M (Buf.full nx x) (Buf.full ny y) = .ok (Buf.full ny (spmvExact (ents es) x y)) := by
  obtain ⟨hne, b1, b2⟩ : es ≠ [] ∧ blockrows ≤ rows ∧ blockcols ≤ columns := by
    have h' := h
    obtain ⟨es1, h1, h'⟩ := bind_ok h'
    obtain ⟨A, h2, -⟩ := bind_ok h'
    unfold csbr2Build at h2
    obtain ⟨n, hn, h2⟩ := bind_ok h2
    obtain ⟨_, h4, h2⟩ := bind_ok h2
    obtain ⟨a, b, -, -⟩ := checkPartition_inv h4
    exact ⟨ne_of_countBlocks hn (calculateBlockId_ents h1), a, b⟩
  have hin := (C88_csbr2 M rows columns es offR blockrows offC blockcols (by have := PR.len; omega) (by have := PC.len; omega)
    (PR.lt (by omega)) (PC.lt (by omega)) _ h).from PR PC
  have H := prepared_blkIn_from (M := M) PR PC hne hlen hgrid hrows (by omega) b1 (by omega) hin
  unfold cooToCsbr2 at h
  rw [calculateBlockId_from PR PC (by omega) (by omega) (by omega) hin, ok_bind] at h
  have hMr : ∀ i, i ≤ blockrows → offF offR i < M := fun i hi => by have := PR.le_total hi; omega
  have e := csbr2Build_ok H b1 b2 (fun i hi => PR.rd_ok i hi) (fun i hi => PC.rd_ok i hi)
    (fun i hi => PR.mono (Nat.le_succ i) hi) hMr PR.at_last PC.at_last
  unfold prepared at e
  simp only at h
  rw [e, ok_bind] at h
  cases h
  have hs := csbr2_spmv H (offC := offC) (columns := columns) (fun i hi => PR.rd_ok i hi) (fun i j h1 h2 => PR.mono h1 h2) hMr PR.at_last nx ny (fun e he => by
      have := (hin _ (mem_prepared he).2).2.2; simp only at this; omega) hny x y
  rw [prepared_exact] at hs
  exact hs

end Gsb
