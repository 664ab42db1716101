import Verif.Proof.Csbr
namespace Gsb
variable {T : Type}

section
variable {M : Nat} {offR offC : List Nat} {rows columns blockrows blockcols : Nat} {es : List (Element T)}

/-- Elements with block ids, sorted: the input of the second half of every blocked constructor. -/
def prepared (offR : List Nat) (blockrows : Nat) (offC : List Nat) (blockcols : Nat) (es : List (Element T)) :
    List (Element T) :=
  sortElementsBlocks (es.map (withKey (blockKey offR blockrows offC blockcols)))

theorem prepared_perm : (prepared offR blockrows offC blockcols es).Perm
    (es.map (withKey (blockKey offR blockrows offC blockcols))) := sortBlocks_perm _

theorem prepared_length : (prepared offR blockrows offC blockcols es).length = es.length := by
  rw [prepared_perm.length_eq, List.length_map]

theorem ents_prepared_perm : (ents (prepared offR blockrows offC blockcols es)).Perm (ents es) := by
  have h : (ents (prepared offR blockrows offC blockcols es)).Perm
      (ents (es.map (withKey (blockKey offR blockrows offC blockcols)))) := prepared_perm.map _
  have h2 : ents (es.map (withKey (blockKey offR blockrows offC blockcols))) = ents es := by
    simp only [ents, List.map_map]; rfl
  rwa [h2] at h

theorem mem_prepared {e : Element T} (he : e ∈ prepared offR blockrows offC blockcols es) :
    e.block = blockKey offR blockrows offC blockcols e.row e.col ∧ (⟨e.row, e.col, e.val⟩ : Ent T) ∈ ents es := by
  have h := prepared_perm.mem_iff.1 he
  obtain ⟨a, ha, rfl⟩ := List.mem_map.1 h
  exact ⟨rfl, List.mem_map.2 ⟨a, ha, rfl⟩⟩

theorem prepared_exact [Add T] [Mul T] (x y : Nat → T) :
    spmvInOrder (ents (prepared offR blockrows offC blockcols es)) x y = spmvExact (ents es) x y :=
  sortBlocks_exact _ es (fun a _ b _ h1 h2 => by rw [h1]; exact blockKey_mono h2) x y

theorem prepared_blkIn (PR : Partition offR blockrows rows) (PC : Partition offC blockcols columns)
    (hne : es ≠ []) (hlen : es.length < M) (hgrid : blockrows * blockcols < M) (hrows : rows + 1 < M)
    (hcols : columns < M) (hbr : blockrows ≤ rows) (hbc : blockcols < M) (hin : InRange (ents es) rows columns) :
    BlkIn M (offF offR) (offF offC) blockrows blockcols (prepared offR blockrows offC blockcols es) := by
  have hmem : ∀ e ∈ prepared offR blockrows offC blockcols es,
      e.block = bidx offR blockrows e.row * blockcols + bidx offC blockcols e.col ∧
      e.row < rows ∧ e.col < columns := by
    intro e he
    obtain ⟨h1, h2⟩ := mem_prepared he
    exact ⟨h1, hin _ h2⟩
  have hbcp : 0 < blockcols := by
    obtain ⟨e, he⟩ := List.exists_mem_of_ne_nil es hne
    exact PC.pos (hin _ (List.mem_map_of_mem (f := NZ.toEnt) he)).2
  have hdiv : ∀ e ∈ prepared offR blockrows offC blockcols es, e.block / blockcols = bidx offR blockrows e.row := by
    intro e he
    obtain ⟨h1, h2, h3⟩ := hmem e he
    rw [h1, key_div (PC.bidx_lt h3)]
  have hmod : ∀ e ∈ prepared offR blockrows offC blockcols es, e.block % blockcols = bidx offC blockcols e.col := by
    intro e he
    obtain ⟨h1, h2, h3⟩ := hmem e he
    rw [h1, key_mod (PC.bidx_lt h3)]
  refine ⟨?_, by rw [prepared_length]; exact hlen, hbcp, ?_, ?_, ?_, ?_, ?_, ?_, by omega, hbc, ?_, ?_⟩
  · intro h
    have := prepared_length (offR := offR) (blockrows := blockrows) (offC := offC) (blockcols := blockcols) (es := es)
    rw [h] at this
    simp at this
    exact hne (List.length_eq_zero_iff.1 this.symm)
  · intro e he
    obtain ⟨h1, h2, h3⟩ := hmem e he
    have := key_lt (PR.bidx_lt h2) (PC.bidx_lt h3)
    omega
  · intro e he
    rw [hdiv e he]; exact PR.bidx_lt (hmem e he).2.1
  · intro e he
    rw [hdiv e he]; exact ⟨PR.bidx_lo (hmem e he).2.1, PR.bidx_hi (hmem e he).2.1⟩
  · intro e he
    rw [hmod e he]; exact ⟨PC.bidx_lo (hmem e he).2.2, PC.bidx_hi (hmem e he).2.2⟩
  · intro e he
    rw [hdiv e he]
    have := PR.le_total (i := bidx offR blockrows e.row + 1) (PR.bidx_lt (hmem e he).2.1)
    omega
  · intro e he
    rw [hmod e he]
    have := PC.le_total (i := bidx offC blockcols e.col + 1) (PC.bidx_lt (hmem e he).2.2)
    omega
  · exact (sortBlocks_sorted _).imp (fun h => by omega)
  · exact (sortBlocks_sorted _).imp (fun h => by omega)

theorem Partition.rd_ok (P : Partition offR blockrows rows) (i : Nat) (hi : i ≤ blockrows) :
    rd offR i = .ok (offF offR i) := rd_off (by have := P.len; omega)

/-- Lengths of the runs add up. -/
theorem load_runs (key : Element T → Nat) (l : List (Element T)) (a b : Nat) :
    load (fun k => (((runs key l)[k]?).getD []).length) a b ≤ l.length := by
  have h0 : ∀ b, b ≤ (runs key l).length → load (fun k => (((runs key l)[k]?).getD []).length) 0 b = runStart key l b := by
    intro b
    induction b with
    | zero => intro _; simp [load, runStart]
    | succ b ih =>
      intro hb
      rw [load_succ _ (Nat.zero_le _), ih (by omega), runStart_succ key l b (by omega)]
      simp [show b < (runs key l).length by omega]
  have h1 : ∀ d, load (fun k => (((runs key l)[k]?).getD []).length) 0 ((runs key l).length + d) = l.length := by
    intro d
    induction d with
    | zero => rw [Nat.add_zero, h0 _ (Nat.le_refl _), runStart_length]
    | succ d ih =>
      rw [← Nat.add_assoc, load_succ _ (Nat.zero_le _), ih, List.getElem?_eq_none (by omega)]
      simp
  rcases Nat.le_total a b with hab | hab
  · have h2 := load_split (fun k => (((runs key l)[k]?).getD []).length) (Nat.zero_le a) hab
    have h3 := load_mono (fun k => (((runs key l)[k]?).getD []).length) (a := 0) (show b ≤ (runs key l).length + b by omega)
    rw [h1] at h3
    omega
  · rw [load_empty _ hab]; omega

/-- The number of non-zeros of a block. -/
theorem csbr_blockNnz {fR fC : Nat → Nat} (H : BlkIn M fR fC blockrows blockcols es) (k : Nat) (hk' : k < (runs Element.block es).length) :
    Csbr.blockNonzeros (csbrOf fR fC offR offC rows columns blockrows blockcols es).blocks k =
      .ok (((runs Element.block es)[k]?).getD []).length := by
  have hm := (run_mem Element.block es k hk').1
  simp only [csbrOf, Csbr.blockNonzeros]
  rw [Buf.get_ok (a := ptrRow fR blockcols (runKey Element.block (runs Element.block es)[k]) (runStart Element.block es k)
      (runs Element.block es)[k]) hk' (by simp [blkBuf, hk', startOf_runs]), ok_bind]
  simp only [ptrRow]
  rw [Buf.get_full (by omega), if_pos (Nat.le_refl _), countP_lt_all]
  · simp [hk']
  · intro e he
    have := H.inR e (hm e he).1
    rw [← (hm e he).2]; omega

/-- The load-balancing partition of the constructed matrix. -/
theorem csbr_partition [Add T] [Mul T] {workers : Nat} (hw : 0 < workers)
    (H : BlkIn M fR fC blockrows blockcols es) :
    ∃ P, partitionInit M workers (csbrOf fR fC offR offC rows columns blockrows blockcols es).toBlockMat = .ok P ∧
      P.length = blockrows ∧ ∀ i, i < blockrows → ∃ c, P[i]? = some c ∧
        ChunksOK (fun k => (((runs Element.block es)[k]?).getD []).length) (es.length / (2 * workers))
          (rowPtrOf blockcols (runKeys Element.block es) i) (rowPtrOf blockcols (runKeys Element.block es) (i + 1)) c := by
  have hlen := H.len
  have hle : ∀ i, rowPtrOf blockcols (runKeys Element.block es) i ≤ es.length := by
    intro i
    refine Nat.le_trans (rowPtrOf_le _ _ _) ?_
    rw [runKeys_length]; exact runs_length_le _ _
  refine partitionInit_spec (M := M) _ (rowPtrOf blockcols (runKeys Element.block es))
    (fun k => (((runs Element.block es)[k]?).getD []).length) hw ?_ ?_ ?_ ?_ ?_
  · intro i hi
    have hi' : i ≤ blockrows := hi
    simp only [Csbr.toBlockMat, csbrOf]
    rw [Buf.get_full (by omega), if_pos hi']; rfl
  · intro i _; exact rowPtrOf_mono _ _ (Nat.le_succ i)
  · intro i _; have := hle i; omega
  · intro k hk
    have hk' : k < (runs Element.block es).length := by
      have := rowPtrOf_le blockcols (runKeys Element.block es) blockrows
      rw [runKeys_length] at this
      exact Nat.lt_of_lt_of_le hk this
    exact csbr_blockNnz H k hk'
  · intro i _
    exact Nat.lt_of_le_of_lt (load_runs _ _ _ _) hlen

/-- Everything about `Coo_to_Csbr` on prepared elements. -/
theorem csbr_main [Add T] [Mul T] {workers : Nat} (hw : 0 < workers) (PR : Partition offR blockrows rows)
    (PC : Partition offC blockcols columns)
    (hne : es ≠ []) (hlen : es.length < M) (hgrid : blockrows * blockcols < M) (hrows : rows + 1 < M)
    (hcols : columns < M) (hbr : blockrows ≤ rows) (hbc : blockcols ≤ columns) (hin : InRange (ents es) rows columns) :
    ∃ P, cooToCsbr M workers es rows columns offR blockrows offC blockcols =
        .ok ({ csbrOf (offF offR) (offF offC) offR offC rows columns blockrows blockcols
            (prepared offR blockrows offC blockcols es) with partition := P },
          prepared offR blockrows offC blockcols es) := by
  have H := prepared_blkIn (M := M) PR PC hne hlen hgrid hrows hcols hbr (by omega) hin
  obtain ⟨P, hP, -⟩ := csbr_partition (rows := rows) (columns := columns) (offR := offR) (offC := offC) hw H
  refine ⟨P, ?_⟩
  unfold cooToCsbr
  rw [calculateBlockId_spec PR PC (by omega) (by omega) (by omega) hin, ok_bind]
  simp only
  have := csbrBuild_ok (workers := workers) H hbr hbc (fun i hi => PR.rd_ok i hi) (fun i hi => PC.rd_ok i hi)
    PR.at_last PC.at_last P hP
  unfold prepared at this
  rw [this, ok_bind]; rfl

theorem csbr_spmv [Add T] [Mul T] [Zero T] {fR fC : Nat → Nat} (H : BlkIn M fR fC blockrows blockcols es)
    (hR : ∀ i, i ≤ blockrows → rd offR i = .ok (fR i)) (hC : ∀ i, i ≤ blockcols → rd offC i = .ok (fC i))
    (hmono : ∀ i, i < blockrows → fR i ≤ fR (i + 1)) (hr : fR blockrows = rows)
    (nx ny : Nat) (hx : ∀ e ∈ es, e.col < nx) (hy : rows ≤ ny) (x y : Nat → T) (P : List (List Nat)) :
    Csbr.spmv M { csbrOf fR fC offR offC rows columns blockrows blockcols es with partition := P }
      (Buf.full nx x) (Buf.full ny y) = .ok (Buf.full ny (spmvInOrder (ents es) x y)) := by
  unfold Csbr.spmv spmvBlocked
  rw [if_pos rfl]
  have R := csbr_blockRep (rows := rows) (columns := columns) H hR hC hmono nx hx x P
  rw [spmvBalanced_spec R ny y (by show fR blockrows ≤ ny; omega), allEnts_blkEnts H, visit_eq]

end
/-! ### Constant block sizes -/

/-- The number of blocks for constant size. -/
def constBlocks (n size : Nat) : Nat := if n / size = 0 then 1 else n / size

/-- The offsets for constant size. -/
def constOff (n size : Nat) : List Nat := (List.range (constBlocks n size)).map (· * size) ++ [n]

theorem constBlocks_pos (n size : Nat) : 0 < constBlocks n size := by
  unfold constBlocks
  generalize n / size = q
  split <;> omega

theorem constBlocks_mul_le (n size : Nat) : (constBlocks n size - 1) * size ≤ n := by
  unfold constBlocks
  split
  · simp
  · exact Nat.le_trans (Nat.mul_le_mul_right _ (Nat.sub_le _ _)) (Nat.div_mul_le_self n size)

theorem constBlocks_le {n size : Nat} (hn : 0 < n) : constBlocks n size ≤ n := by
  have hq : n / size ≤ n := Nat.div_le_self n size
  unfold constBlocks
  generalize n / size = q at *
  split <;> omega

theorem constOff_length (n size : Nat) : (constOff n size).length = constBlocks n size + 1 := by
  simp [constOff]

theorem constOff_lt {n size i : Nat} (h : i < constBlocks n size) : (constOff n size)[i]? = some (i * size) := by
  unfold constOff
  rw [List.getElem?_append_left (by simpa using h)]
  simp [h]

theorem constOff_last (n size : Nat) : (constOff n size)[constBlocks n size]? = some n := by
  unfold constOff
  rw [List.getElem?_append_right (by simp)]
  simp

theorem constOff_partition (n size : Nat) : Partition (constOff n size) (constBlocks n size) n := by
  refine ⟨constOff_length n size, by rw [constOff_lt (constBlocks_pos n size)]; simp, constOff_last n size, ?_⟩
  unfold constOff
  rw [List.pairwise_append]
  refine ⟨?_, by simp, ?_⟩
  · rw [List.pairwise_map]
    refine List.Pairwise.imp ?_ (List.pairwise_lt_range (n := constBlocks n size))
    intro a b h
    exact Nat.mul_le_mul_right _ (Nat.le_of_lt h)
  · intro a ha b hb
    simp at hb; subst hb
    obtain ⟨i, hi, rfl⟩ := List.mem_map.1 ha
    rw [List.mem_range] at hi
    refine Nat.le_trans (Nat.mul_le_mul_right size ?_) (constBlocks_mul_le b size)
    omega

theorem constOffsets_spec {M n size : Nat} (hs : 0 < size) (hn : 0 < n) (hM : n + 1 < M) :
    constOffsets M n size = .ok (constBlocks n size, constOff n size) := by
  unfold constOffsets
  rw [cdiv_ok hs, ok_bind]
  have hb : (if n / size = 0 then 1 else n / size) = constBlocks n size := rfl
  simp only [hb]
  have hpos := constBlocks_pos n size
  have hle := constBlocks_le (size := size) hn
  have hmul := constBlocks_mul_le n size
  rw [addM_eq (by omega), subM_eq (by omega) (by omega), Buf.put_ok (by simp), ok_bind]
  simp only [Buf.uninit_len]
  rw [forLoop_closed' (fun i => (⟨constBlocks n size + 1, fun k => if k ≤ i then some (k * size) else none⟩ : Buf Nat))
    (Nat.zero_le _) ?_ rfl]
  · rw [ok_bind, Buf.put_ok (by simp), ok_bind]
    simp only
    unfold Buf.toList
    rw [mapM_get_ok _ _ (fun i => (constOff n size)[i]?.getD 0), ok_bind]
    · congr 2
      refine List.ext_getElem (by simp [constOff_length]) ?_
      intro i h1 h2
      simp [h2]
    · intro i hi
      rw [List.mem_range] at hi
      refine Buf.get_ok hi ?_
      simp only
      by_cases h : i = constBlocks n size
      · subst h; rw [constOff_last]; simp
      · rw [if_neg h, if_pos (by omega), constOff_lt (by omega)]; rfl
  · intro i _ hi
    have h1 : (i + 1) * size ≤ (constBlocks n size - 1) * size := Nat.mul_le_mul_right _ (by omega)
    have h2 : (i + 1) * size = i * size + size := by rw [Nat.add_mul]; omega
    rw [Buf.get_ok (a := i * size) (by simp; omega) (by simp), ok_bind, addM_eq (by omega), Buf.put_ok (by simp; omega)]
    congr 1
    refine Buf.ext' rfl (fun k => ?_)
    simp only
    by_cases hk : k = i + 1
    · subst hk; simp [h2]
    · have : (k ≤ i + 1) ↔ (k ≤ i) := by omega
      simp [hk, this]
  · refine Buf.ext' rfl (fun k => ?_)
    simp only [Buf.uninit]
    by_cases hk : k = 0
    · subst hk; simp
    · simp [hk]

end Gsb
