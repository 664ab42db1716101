import Verif.Proof.CsbrCoo2
import Verif.Proof.CgbrWide
/-
C14, continued: what `Coo_to_Csbr` from a Coo2 does if what it reads behind the array happens to be harmless.
-/
namespace Gsb
variable {T : Type}

section
variable {M rows columns : Nat} {L : List (Triplet T)} {offR offC : List Nat} {blockrows blockcols : Nat}

theorem grpOf_sorted (K : Triplet T → Nat) (L : List (Triplet T)) (c : Nat) :
    (grpOf K L c).Pairwise (fun a b => a.row < b.row ∨ a.row = b.row ∧ a.col ≤ b.col) := by
  unfold grpOf
  rw [List.pairwise_map]
  have hp := totalPre_rowMajor (ε := Triplet T)
  have := List.pairwise_mergeSort hp.trans hp.total (L.filter (fun t => K t == c))
  unfold sortTriplets pssSort
  refine List.Pairwise.imp ?_ this
  intro a b h
  rw [leOf_ltRowMajor, decide_eq_true_eq] at h
  exact h

theorem firstBlocks_sorted (K : Triplet T → Nat) (L : List (Triplet T)) (b : Nat) :
    (firstBlocks K L b).Pairwise (fun a b => a.block < b.block ∨ a.block = b.block ∧ (a.row < b.row ∨ a.row = b.row ∧ a.col ≤ b.col)) := by
  induction b with
  | zero => simp [firstBlocks]
  | succ b ih =>
    rw [firstBlocks_succ, List.pairwise_append]
    refine ⟨ih, ?_, ?_⟩
    · refine (grpOf_sorted K L b).imp_of_mem ?_
      intro x y hx hy h
      exact .inr ⟨by rw [(grpOf_mem hx).1, (grpOf_mem hy).1], h⟩
    · intro x hx y hy
      left
      rw [(grpOf_mem hy).1]
      exact (firstBlocks_mem hx).1

theorem tKey_range (PR : Partition offR blockrows rows) (PC : Partition offC blockcols columns) (hin : InRange L rows columns)
    {e : Element T} (he : e ∈ firstBlocks (tKey offR blockrows offC blockcols) L (blockrows * blockcols)) :
    InBlockRange offR (e.block / blockcols) e.row ∧ InBlockRange offC (e.block % blockcols) e.col := by
  obtain ⟨-, h2, h3⟩ := firstBlocks_mem he
  have h := hin _ h2
  have h4 : bidx offR blockrows e.row * blockcols + bidx offC blockcols e.col = e.block := h3
  have h5 : bidx offC blockcols e.col < blockcols := PC.bidx_lt h.2
  rw [← h4, key_div h5, key_mod h5]
  exact ⟨bidx_range PR h.1, bidx_range PC h.2⟩

theorem byBlocks_coo2 (PR : Partition offR blockrows rows) (PC : Partition offC blockcols columns) (hin : InRange L rows columns)
    (hs : L.Pairwise (fun a b => tKey offR blockrows offC blockcols a ≤ tKey offR blockrows offC blockcols b)) :
    ByBlocks offR offC blockcols L (firstBlocks (tKey offR blockrows offC blockcols) L (blockrows * blockcols)) :=
  ⟨firstBlocks_all hs (fun t ht => key_lt (PR.bidx_lt (hin t ht).1) (PC.bidx_lt (hin t ht).2)), fun _ he => tKey_range PR PC hin he,
    firstBlocks_sorted _ _ _⟩

/-- Elements block by block are what the second half of a blocked constructor expects. -/
theorem ByBlocks.blkIn {es : List (Ent T)} {es' : List (Element T)} (Y : ByBlocks offR offC blockcols es es')
    (PR : Partition offR blockrows rows) (PC : Partition offC blockcols columns)
    (hne : es ≠ []) (hlen : es.length < M) (hgrid : blockrows * blockcols < M) (hrows : rows + 1 < M)
    (hcols : columns < M) (hbr : blockrows ≤ rows) (hbc : blockcols < M) (hbp : 0 < blockcols) :
    BlkIn M (offF offR) (offF offC) blockrows blockcols es' := by
  have hl : es'.length = es.length := by rw [← Y.perm.length_eq]; simp [ents]
  have hR : ∀ {k v : Nat}, InBlockRange offR k v → k < blockrows ∧ offF offR k ≤ v ∧ v < offF offR (k + 1) := by
    rintro k v ⟨lo, hi, a1, a2, a3, a4⟩
    have := (List.getElem?_eq_some_iff.1 a2).1
    have := PR.len
    exact ⟨by omega, by simp only [offF, a1]; exact a3, by simp only [offF, a2]; exact a4⟩
  have hC : ∀ {k v : Nat}, InBlockRange offC k v → k < blockcols ∧ offF offC k ≤ v ∧ v < offF offC (k + 1) := by
    rintro k v ⟨lo, hi, a1, a2, a3, a4⟩
    have := (List.getElem?_eq_some_iff.1 a2).1
    have := PC.len
    exact ⟨by omega, by simp only [offF, a1]; exact a3, by simp only [offF, a2]; exact a4⟩
  refine ⟨?_, by omega, hbp, ?_, fun e he => (hR (Y.inBlock e he).1).1, fun e he => (hR (Y.inBlock e he).1).2,
    fun e he => (hC (Y.inBlock e he).2).2, ?_, ?_, by omega, hbc, Y.sorted.imp (fun h => by omega), Y.sorted.imp (fun h => by omega)⟩
  · intro h
    rw [h] at hl
    exact hne (List.length_eq_zero_iff.1 hl.symm)
  · intro e he
    have h1 := (hR (Y.inBlock e he).1).1
    have h2 := (hC (Y.inBlock e he).2).1
    have h3 := key_lt h1 h2
    have h4 := Nat.div_add_mod e.block blockcols
    rw [Nat.mul_comm] at h4
    omega
  · intro e he
    have := PR.le_total (i := e.block / blockcols + 1) (hR (Y.inBlock e he).1).1
    omega
  · intro e he
    have := PC.le_total (i := e.block % blockcols + 1) (hC (Y.inBlock e he).2).1
    omega

/-- Everything about the constructor from a Coo2. -/
theorem coo2_main [Add T] [Mul T] {workers : Nat} {stdSort : Nat → Nat → List (Triplet T) → C (List (Triplet T))}
    {ts after : List (Triplet T)} (hw : 0 < workers) (PR : Partition offR blockrows rows) (PC : Partition offC blockcols columns)
    (hne : ts ≠ []) (hlen : (ts ++ after).length < M) (hgrid : blockrows * blockcols < M) (hrows : rows + 1 < M)
    (hcols : columns < M) (hbr : blockrows ≤ rows) (hbc : blockcols ≤ columns) (hin : InRange ts rows columns)
    (B : Behind offR blockrows rows ts after) (hsort : SortsByBlockColumn offC stdSort) :
    ∃ (es' : List (Element T)) (P : List (List Nat)) (brp : Buf Nat), ByBlocks offR offC blockcols ts es' ∧
      (∀ i, i ≤ blockrows → brp.get i = (csbrOf (offF offR) (offF offC) offR offC rows columns blockrows blockcols es').blockrowPtr.get i) ∧
      cooToCsbrCoo2 M workers stdSort ts after rows columns offR blockrows offC blockcols =
        .ok ({ csbrOf (offF offR) (offF offC) offR offC rows columns blockrows blockcols es' with partition := P, blockrowPtr := brp },
          es'.map (locEnt (offF offR) (offF offC) blockcols)) := by
  obtain ⟨e0, he0⟩ := List.exists_mem_of_ne_nil ts hne
  have hb : 0 < blockrows := PR.pos (hin _ he0).1
  have hbp : 0 < blockcols := PC.pos (hin _ he0).2
  obtain ⟨L, s1, s2, s3⟩ := sortTripletsBlocks_ok (M := M) PR PC hb hlen (by omega) hin B hsort
  have hlen' : ts.length < M := by rw [List.length_append] at hlen; omega
  have hll := s2.length_eq
  have hinL : InRange L rows columns := fun t ht => hin t (s2.mem_iff.1 ht)
  have hlt : ∀ t ∈ L, tKey offR blockrows offC blockcols t < blockrows * blockcols :=
    fun t ht => key_lt (PR.bidx_lt (hinL t ht).1) (PC.bidx_lt (hinL t ht).2)
  have Y0 := byBlocks_coo2 PR PC hinL s3
  have Y : ByBlocks offR offC blockcols ts (firstBlocks (tKey offR blockrows offC blockcols) L (blockrows * blockcols)) :=
    ⟨Y0.perm.trans s2, Y0.inBlock, Y0.sorted⟩
  have H := Y.blkIn (M := M) PR PC hne hlen' hgrid hrows hcols hbr (by omega) hbp
  have hloop : forLoop 0 blockrows (coo2State (tKey offR blockrows offC blockcols) (offF offR) (offF offC) blockcols
        (fullBlocks (fun c => L.countP (fun t => tKey offR blockrows offC blockcols t == c)) (blockrows * blockcols)) L 0) (fun i s => do
      let brOff ← rd offR i
      let brEnd ← rd offR (i + 1)
      forLoop 0 blockcols s (coo2Block M offC blockcols (Buf.full (blockrows * blockcols)
        (fun k => L.countP (fun t => tKey offR blockrows offC blockcols t == k))) i brOff (subM M brEnd brOff))) =
      .ok (coo2State (tKey offR blockrows offC blockcols) (offF offR) (offF offC) blockcols
        (fullBlocks (fun c => L.countP (fun t => tKey offR blockrows offC blockcols t == c)) (blockrows * blockcols)) L (blockrows * blockcols)) := by
    refine forLoop_closed' (fun i => coo2State (tKey offR blockrows offC blockcols) (offF offR) (offF offC) blockcols
        (fullBlocks (fun c => L.countP (fun t => tKey offR blockrows offC blockcols t == c)) (blockrows * blockcols)) L (i * blockcols))
      (Nat.zero_le _) (by rw [Nat.zero_mul]) rfl ?_
    intro i _ hi
    have h1 := PR.le_total (i := i + 1) hi
    have h2 := PR.mono (i := i) (j := i + 1) (by omega) (by omega)
    rw [PR.rd_ok i (by omega), ok_bind, PR.rd_ok (i + 1) (by omega), ok_bind, subM_eq (by omega) h2]
    refine forLoop_closed' (fun j => coo2State (tKey offR blockrows offC blockcols) (offF offR) (offF offC) blockcols
        (fullBlocks (fun c => L.countP (fun t => tKey offR blockrows offC blockcols t == c)) (blockrows * blockcols)) L (i * blockcols + j))
      (Nat.zero_le _) rfl (by rw [Nat.add_mul, Nat.one_mul]) ?_
    intro j _ hj
    exact coo2Block_ok PR PC (by omega) hgrid hrows hcols hinL s3 hi hj
  obtain ⟨brp, p1, p2⟩ := coo2BlockrowPtr_ok (M := M) (blockrows := blockrows) (blockcols := blockcols)
    (fun c => L.countP (fun t => tKey offR blockrows offC blockcols t == c)) (by omega) hgrid
  have hptr : ∀ i, i ≤ blockrows → brp.get i = .ok ((runKeys Element.block (firstBlocks (tKey offR blockrows offC blockcols) L
      (blockrows * blockcols))).countP (fun κ => decide (κ / blockcols < i))) := by
    intro i hi
    rw [p2 i hi, runKeys_firstBlocks, List.countP_filter]
    congr 1
    have hle : i * blockcols ≤ blockrows * blockcols := Nat.mul_le_mul_right _ hi
    obtain ⟨d, hd⟩ : ∃ d, blockrows * blockcols = i * blockcols + d := ⟨blockrows * blockcols - i * blockcols, by omega⟩
    rw [hd, List.range_add, List.countP_append]
    have h2 : (List.map (fun x => i * blockcols + x) (List.range d)).countP (fun a => decide (a / blockcols < i) &&
        decide (0 < L.countP (fun t => tKey offR blockrows offC blockcols t == a))) = 0 := by
      rw [List.countP_eq_zero]
      intro a ha
      obtain ⟨x, -, rfl⟩ := List.mem_map.1 ha
      have : i ≤ (i * blockcols + x) / blockcols := by rw [Nat.le_div_iff_mul_le hbp]; omega
      simp only [Bool.and_eq_true, decide_eq_true_eq]
      omega
    rw [h2, Nat.add_zero]
    unfold fullBlocks
    rw [← List.countP_eq_length_filter]
    refine List.countP_congr ?_
    intro a ha
    rw [List.mem_range] at ha
    have : a / blockcols < i := by rw [Nat.div_lt_iff_lt_mul hbp]; exact ha
    simp [this]
  have hcount := coo2Count_ok (M := M) PR PC (by omega) (by omega) (by omega) hgrid hinL
  have hinit : coo2State (tKey offR blockrows offC blockcols) (offF offR) (offF offC) blockcols
        (fullBlocks (fun c => L.countP (fun t => tKey offR blockrows offC blockcols t == c)) (blockrows * blockcols)) L 0 =
      ⟨L, 0, 0, Buf.uninit (fullBlocks (fun c => L.countP (fun t => tKey offR blockrows offC blockcols t == c)) (blockrows * blockcols)),
        Buf.uninit (fullBlocks (fun c => L.countP (fun t => tKey offR blockrows offC blockcols t == c)) (blockrows * blockcols)),
        Buf.uninit L.length, Buf.uninit L.length⟩ := by
    simp [coo2State, firstBlocks, runKeys, runs, Buf.uninit, blkBuf]
  have hlenE : (firstBlocks (tKey offR blockrows offC blockcols) L (blockrows * blockcols)).length = L.length := by
    rw [← Y0.perm.length_eq]; simp [ents]
  have hnb := runs_firstBlocks_length (K := tKey offR blockrows offC blockcols) (L := L) (blockrows * blockcols)
  have hend : L.filter (fun t => decide (blockrows * blockcols ≤ tKey offR blockrows offC blockcols t)) = [] := by
    rw [List.filter_eq_nil_iff]
    intro t ht
    have := hlt t ht
    simp; omega
  -- the partition for load balancing
  have hPart : ∃ P, partitionInit M workers (Csbr.toBlockMat { csbrOf (offF offR) (offF offC) offR offC rows columns blockrows blockcols
      (firstBlocks (tKey offR blockrows offC blockcols) L (blockrows * blockcols)) with blockrowPtr := brp }) = .ok P := by
    have hle : ∀ i, rowPtrOf blockcols (runKeys Element.block (firstBlocks (tKey offR blockrows offC blockcols) L (blockrows * blockcols))) i ≤
        (firstBlocks (tKey offR blockrows offC blockcols) L (blockrows * blockcols)).length := by
      intro i
      refine Nat.le_trans (rowPtrOf_le _ _ _) ?_
      rw [runKeys_length]; exact runs_length_le _ _
    obtain ⟨P, hP, -⟩ := partitionInit_spec (M := M) (workers := workers) (Csbr.toBlockMat { csbrOf (offF offR) (offF offC) offR offC rows columns blockrows blockcols
      (firstBlocks (tKey offR blockrows offC blockcols) L (blockrows * blockcols)) with blockrowPtr := brp })
      (rowPtrOf blockcols (runKeys Element.block (firstBlocks (tKey offR blockrows offC blockcols) L (blockrows * blockcols))))
      (fun k => (((runs Element.block (firstBlocks (tKey offR blockrows offC blockcols) L (blockrows * blockcols)))[k]?).getD []).length) hw
      (fun i hi => hptr i hi) (fun i _ => rowPtrOf_mono _ _ (Nat.le_succ i)) (fun i _ => by have := hle i; omega)
      (by
        intro k hk
        have hk' : k < (runs Element.block (firstBlocks (tKey offR blockrows offC blockcols) L (blockrows * blockcols))).length := by
          have := rowPtrOf_le blockcols (runKeys Element.block (firstBlocks (tKey offR blockrows offC blockcols) L (blockrows * blockcols))) blockrows
          rw [runKeys_length] at this
          exact Nat.lt_of_lt_of_le hk this
        exact csbr_blockNnz (offR := offR) (offC := offC) (rows := rows) (columns := columns) H k hk')
      (fun i _ => Nat.lt_of_le_of_lt (load_runs _ _ _ _) H.len)
    exact ⟨P, hP⟩
  obtain ⟨P, hP⟩ := hPart
  refine ⟨_, P, brp, Y, ?_, ?_⟩
  · intro i hi
    rw [hptr i hi]
    simp only [csbrOf]
    rw [Buf.get_full (by omega), if_pos hi]
  · unfold cooToCsbrCoo2
    rw [checkPartition_ok hbr hbc (fun i hi => PR.rd_ok i hi) (fun i hi => PC.rd_ok i hi) PR.at_last PC.at_last, ok_bind, s1, ok_bind,
      hcount, ok_bind, p1, ok_bind]
    simp only
    rw [← hinit, hloop, ok_bind]
    simp only [coo2State]
    rw [hend, List.append_nil]
    simp only [csbrOf, hlenE, hnb] at hP ⊢
    rw [hP, ok_bind]

/-- Entries block by block, each block by rows, are by columns within every row. -/
theorem ByBlocks.row_sorted {es : List (Ent T)} {es' : List (Element T)} (Y : ByBlocks offR offC blockcols es es')
    (PR : Partition offR blockrows rows) (PC : Partition offC blockcols columns) (i : Nat) :
    (rowEntries (ents es') i).Pairwise (fun a b => a.col ≤ b.col) := by
  unfold rowEntries ents
  rw [List.filter_map, List.pairwise_map]
  have h := Y.sorted.sublist (List.filter_sublist (p := (fun e : Ent T => e.row == i) ∘ NZ.toEnt))
  refine h.imp_of_mem ?_
  intro a b ha hb hab
  rw [List.mem_filter] at ha hb
  have ra : a.row = i := beq_iff_eq.1 ha.2
  have rb : b.row = i := beq_iff_eq.1 hb.2
  show a.col ≤ b.col
  have a1 := Y.inBlock a ha.1
  have b1 := Y.inBlock b hb.1
  rw [ra] at a1
  rw [rb] at b1
  have hd := inBlock_unique PR a1.1 b1.1
  rcases hab with h | h
  · have hm : a.block % blockcols < b.block % blockcols := by
      have e1 := Nat.div_add_mod a.block blockcols
      have e2 := Nat.div_add_mod b.block blockcols
      rw [hd] at e1
      omega
    obtain ⟨lo, hi, c1, c2, c3, c4⟩ := a1.2
    obtain ⟨lo', hi', d1, d2, d3, d4⟩ := b1.2
    obtain ⟨k1, c2⟩ := List.getElem?_eq_some_iff.1 c2
    obtain ⟨k2, d1⟩ := List.getElem?_eq_some_iff.1 d1
    have hs := List.pairwise_iff_getElem.1 PC.sorted
    by_cases heq : a.block % blockcols + 1 = b.block % blockcols
    · simp only [heq] at c2; omega
    · have := hs _ _ k1 k2 (by omega); omega
  · omega

/-- With no position given twice there is only one such order within a row. -/
theorem ByBlocks.exact [Add T] [Mul T] {es : List (Ent T)} {es' : List (Element T)} (Y : ByBlocks offR offC blockcols es es')
    (PR : Partition offR blockrows rows) (PC : Partition offC blockcols columns) (hd : Distinct es) (x y : Nat → T) :
    spmvInOrder (ents es') x y = spmvExact es x y := by
  funext i
  unfold spmvInOrder spmvExact
  congr 1
  have hp : (rowEntries (ents es') i).Perm (rowByColumn es i) :=
    (Y.perm.filter _).trans (List.mergeSort_perm _ _).symm
  have h1 := Y.row_sorted PR PC i
  have h2 : (rowByColumn es i).Pairwise (fun a b => a.col ≤ b.col) := by
    have := List.pairwise_mergeSort (le := fun a b : Ent T => decide (a.col ≤ b.col))
      (fun a b c h1 h2 => by simp only [decide_eq_true_eq] at *; omega)
      (fun a b => by simp only [Bool.or_eq_true, decide_eq_true_eq]; omega) (rowEntries es i)
    exact this.imp (fun h => by simpa using h)
  refine List.Perm.eq_of_pairwise (le := fun a b => a.col ≤ b.col) ?_ h1 h2 hp
  intro a b ha hb hab hba
  have ha' := Y.perm.mem_iff.1 (List.mem_filter.1 ha).1
  have ra : a.row = i := by simpa using (List.mem_filter.1 ha).2
  have hb' := List.mem_filter.1 ((List.mergeSort_perm _ _).mem_iff.1 hb)
  have rb : b.row = i := by simpa using hb'.2
  by_contra hne
  haveI : Std.Symm (fun a b : Ent T => ¬ (a.row = b.row ∧ a.col = b.col)) := ⟨fun x y h h' => h ⟨h'.1.symm, h'.2.symm⟩⟩
  exact List.Pairwise.forall hd ha' hb'.1 hne ⟨by omega, by omega⟩

end

/-- With no position given twice the order of the entries does not matter. -/
theorem spmvExact_perm [Add T] [Mul T] {es es' : List (Ent T)} (hp : es'.Perm es) (hd : Distinct es') (x y : Nat → T) :
    spmvExact es' x y = spmvExact es x y := by
  funext i
  unfold spmvExact
  congr 1
  have hs : ∀ l : List (Ent T), (rowByColumn l i).Pairwise (fun a b => a.col ≤ b.col) := by
    intro l
    have := List.pairwise_mergeSort (le := fun a b : Ent T => decide (a.col ≤ b.col))
      (fun a b c h1 h2 => by simp only [decide_eq_true_eq] at *; omega)
      (fun a b => by simp only [Bool.or_eq_true, decide_eq_true_eq]; omega) (rowEntries l i)
    exact this.imp (fun h => by simpa using h)
  refine List.Perm.eq_of_pairwise (le := fun a b => a.col ≤ b.col) ?_ (hs es') (hs es)
    ((List.mergeSort_perm _ _).trans ((hp.filter _).trans (List.mergeSort_perm _ _).symm))
  intro a b ha hb hab hba
  have ha' := List.mem_filter.1 ((List.mergeSort_perm _ _).mem_iff.1 ha)
  have hb' := List.mem_filter.1 ((List.mergeSort_perm _ _).mem_iff.1 hb)
  have ra : a.row = i := by simpa using ha'.2
  have rb : b.row = i := by simpa using hb'.2
  by_contra hne
  haveI : Std.Symm (fun a b : Ent T => ¬ (a.row = b.row ∧ a.col = b.col)) := ⟨fun x y h h' => h ⟨h'.1.symm, h'.2.symm⟩⟩
  exact List.Pairwise.forall hd ha'.1 (hp.mem_iff.2 hb'.1) hne ⟨by omega, by omega⟩

/-- **C14.** If what `Coo_to_Csbr` from a Coo2 finds behind the array of triplets is harmless, and `std::sort` sorts, then the
constructor returns; the triplets are left block by block, each block by rows, in coordinates that count from the beginning of the
block; and the product adds each row's terms in that order. -/
theorem C14_harmless_behind [Add T] [Mul T] [Zero T] (M workers rows columns : Nat)
    (stdSort : Nat → Nat → List (Triplet T) → C (List (Triplet T))) (ts after : List (Triplet T))
    (offR : List Nat) (blockrows : Nat) (offC : List Nat) (blockcols : Nat)
    (hw : 0 < workers) (PR : Partition offR blockrows rows) (PC : Partition offC blockcols columns)
    (hne : ts ≠ []) (hlen : (ts ++ after).length < M) (hgrid : blockrows * blockcols < M) (hrows : rows + 1 < M)
    (hcols : columns < M) (hbr : blockrows ≤ rows) (hbc : blockcols ≤ columns) (hin : InRange ts rows columns)
    (hbehind : Behind offR blockrows rows ts after) (hsort : SortsByBlockColumn offC stdSort)
    (nx ny : Nat) (hnx : columns ≤ nx) (hny : rows ≤ ny) (x y : Nat → T) :
    ∃ A es', ByBlocks offR offC blockcols ts es' ∧
      cooToCsbrCoo2 M workers stdSort ts after rows columns offR blockrows offC blockcols =
        .ok (A, es'.map (fun e => ⟨e.row - blockStart offR e.row, e.col - blockStart offC e.col, e.val⟩)) ∧
      A.spmv M (Buf.full nx x) (Buf.full ny y) = .ok (Buf.full ny (spmvInOrder (ents es') x y)) ∧
      (Distinct ts → spmvInOrder (ents es') x y = spmvExact ts x y) := by
  obtain ⟨es', P, brp, Y, h1, h2⟩ := coo2_main (M := M) hw PR PC hne hlen hgrid hrows hcols hbr hbc hin hbehind hsort
  obtain ⟨e0, he0⟩ := List.exists_mem_of_ne_nil ts hne
  have hbp : 0 < blockcols := PC.pos (hin _ he0).2
  have H := Y.blkIn (M := M) PR PC hne (by rw [List.length_append] at hlen; omega) hgrid hrows hcols hbr (by omega) hbp
  refine ⟨{ csbrOf (offF offR) (offF offC) offR offC rows columns blockrows blockcols es' with partition := P, blockrowPtr := brp },
    es', Y, ?_, ?_, fun hd => Y.exact PR PC hd x y⟩
  · rw [h2]
    congr 2
    refine List.map_congr_left ?_
    intro e he
    have hm : (⟨e.row, e.col, e.val⟩ : Ent T) ∈ ts := Y.perm.mem_iff.1 (List.mem_map_of_mem (f := NZ.toEnt) he)
    have hr := hin _ hm
    obtain ⟨b1, b2⟩ := Y.inBlock e he
    have e1 := inBlock_unique PR b1 (bidx_range PR hr.1)
    have e2 := inBlock_unique PC b2 (bidx_range PC hr.2)
    unfold locEnt
    rw [PR.start_bidx hr.1, PC.start_bidx hr.2, e1, e2]
  · unfold Csbr.spmv spmvBlocked
    rw [if_pos rfl]
    have R := csbr_blockRep (rows := rows) (columns := columns) H (fun i hi => PR.rd_ok i hi) (fun i hi => PC.rd_ok i hi)
      (fun i hi => PR.mono (Nat.le_succ i) hi) nx (fun e he => by
        have := hin _ (Y.perm.mem_iff.1 (List.mem_map_of_mem (f := NZ.toEnt) he))
        have : e.col < columns := this.2
        omega) x P
    have R' : BlockRep (Csbr.toBlockMat { csbrOf (offF offR) (offF offC) offR offC rows columns blockrows blockcols es' with
        partition := P, blockrowPtr := brp }) blockcols (offF offR) (offF offC) (runKeys Element.block es') nx x
        (blkEnts (offF offR) blockcols es') :=
      ⟨R.bcPos, R.sorted, R.range, fun i hi => (h1 i hi).trans (R.ptr i hi), R.col, R.rowOff, R.colOff, R.mono, R.eff, R.rowsB⟩
    rw [spmvBalanced_spec R' ny y (by show offF offR blockrows ≤ ny; rw [PR.at_last]; exact hny), allEnts_blkEnts H, visit_eq]

/-- **C14.** In exact arithmetic the product is then the right one, whatever order `std::sort` leaves equals in. -/
theorem C14_harmless_sum [NonUnitalNonAssocSemiring T] (M workers rows columns : Nat)
    (stdSort : Nat → Nat → List (Triplet T) → C (List (Triplet T))) (ts after : List (Triplet T))
    (offR : List Nat) (blockrows : Nat) (offC : List Nat) (blockcols : Nat)
    (hw : 0 < workers) (PR : Partition offR blockrows rows) (PC : Partition offC blockcols columns)
    (hne : ts ≠ []) (hlen : (ts ++ after).length < M) (hgrid : blockrows * blockcols < M) (hrows : rows + 1 < M)
    (hcols : columns < M) (hbr : blockrows ≤ rows) (hbc : blockcols ≤ columns) (hin : InRange ts rows columns)
    (hbehind : Behind offR blockrows rows ts after) (hsort : SortsByBlockColumn offC stdSort)
    (nx ny : Nat) (hnx : columns ≤ nx) (hny : rows ≤ ny) (x y : Nat → T) :
    ∃ A ts', cooToCsbrCoo2 M workers stdSort ts after rows columns offR blockrows offC blockcols = .ok (A, ts') ∧
      A.spmv M (Buf.full nx x) (Buf.full ny y) = .ok (Buf.full ny (spmvSum ts x y)) := by
  obtain ⟨A, es', Y, h1, h2, -⟩ := C14_harmless_behind M workers rows columns stdSort ts after offR blockrows offC blockcols hw PR PC hne
    hlen hgrid hrows hcols hbr hbc hin hbehind hsort nx ny hnx hny x y
  refine ⟨A, _, h1, ?_⟩
  rw [h2, spmvInOrder_eq_sum, spmvSum_perm Y.perm]

end Gsb
