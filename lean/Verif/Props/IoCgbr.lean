import Verif.Proof.IoCgbr
import Verif.Props.IoBlocked
import Verif.Props.Cgbr
/-
C41: blocked files into Cgbr.
-/
namespace Gsb
variable {T : Type} {w : Nat} {cv : Codec T}

section
variable {M : Nat} {fR fC : Nat → Nat} {bc blockrows : Nat} {es : List (Element T)} {offR offC : List Nat}

/-- Entries of block `k` as read, local rows. -/
def readEnts (fR : Nat → Nat) (bc : Nat) (es : List (Element T)) (k : Nat) : List (Ent T) :=
  if k = 0 then (blkEnts fR bc es 0).tail else blkEnts fR bc es k

theorem shift_tail (a b : Nat) (l : List (Ent T)) : shift a b l.tail = (shift a b l).tail := by
  unfold shift; rw [List.map_tail]

theorem ents_tail (l : List (Element T)) : ents l.tail = (ents l).tail := by
  unfold ents; rw [List.map_tail]

theorem shift_readLoc (H : BlkIn M fR fC blockrows bc es) {k : Nat} (hk : k < (runs Element.block es).length) (yo : Nat) :
    shift yo (fC (runKey Element.block (runs Element.block es)[k] % bc)) (ents (readLoc fR fC bc es k)) =
      shift yo 0 (readEnts fR bc es k) := by
  have h := shift_runLoc H hk yo
  unfold readLoc readEnts
  by_cases h0 : k = 0
  · subst h0
    simp only [if_true]
    rw [ents_tail, shift_tail, h, shift_tail]
  · simp only [if_neg h0]; exact h

theorem allEnts_readEnts (H : BlkIn M fR fC blockrows bc es) :
    allEnts bc fR (runKeys Element.block es) (readEnts fR bc es) (runKeys Element.block es).length = (ents es).tail := by
  rw [← allEnts_blkEnts H]
  have h0 : 0 < (runKeys Element.block es).length := by rw [runKeys_length]; exact runs_length_pos _ H.ne
  obtain ⟨n, hn⟩ : ∃ n, (runKeys Element.block es).length = n + 1 := ⟨_, (Nat.sub_add_cancel h0).symm⟩
  unfold allEnts
  rw [hn, List.range_succ_eq_map, List.map_cons, List.map_cons, List.map_map, List.map_map, List.flatten_cons, List.flatten_cons]
  have e1 : readEnts fR bc es 0 = (blkEnts fR bc es 0).tail := if_pos rfl
  rw [e1, shift_tail, List.tail_append_of_ne_nil]
  · rfl
  · have hk : 0 < (runs Element.block es).length := by simpa using h0
    rw [blkEnts_eq fR bc es hk]
    simpa [shift] using (run_mem Element.block es 0 hk).2.1

theorem readLoc_sublist (k : Nat) : (readLoc fR fC bc es k).Sublist (runLoc fR fC bc es k) := by
  unfold readLoc
  split
  · next h => subst h; exact List.tail_sublist _
  · exact List.Sublist.refl _

variable [NonUnitalNonAssocSemiring T]

/-- The matrix the reader builds. -/
def readGbr (res : Results (MatrixBlock T) T) (fR fC : Nat → Nat) (offR offC : List Nat) (rows columns blockrows bc : Nat)
    (es : List (Element T)) : Gbr (MatrixBlock T) :=
  { gbrOf res offR offC rows columns blockrows bc es with
    typeNnz := Buf.full 6 (nnzType res (fun j => (readLoc fR fC bc es j).length) (runs Element.block es).length) }

/-- Every block was built from what the reader kept of it. -/
def AllRead (S : Nat) (choose : Nat → Nat → Nat → BlockChoice) (M : Nat) (fR fC : Nat → Nat) (bc : Nat) (es : List (Element T))
    (res : Results (MatrixBlock T) T) : Prop :=
  ∀ k, k < (runs Element.block es).length →
    MakesBlock (cooToMatrixBlock M S choose) (MatrixBlock.spmv M) (MatrixBlock.nonzeros M) (blkRows fR bc es k)
      (blkCols fC bc es k) (readLoc fR fC bc es k) (res k)

theorem read_blockRep {S : Nat} {choose : Nat → Nat → Nat → BlockChoice} {res : Results (MatrixBlock T) T} {rows columns : Nat}
    (H : BlkIn M fR fC blockrows bc es)
    (hR : ∀ i, i ≤ blockrows → rd offR i = .ok (fR i)) (hC : ∀ i, i ≤ bc → rd offC i = .ok (fC i))
    (hmono : ∀ i, i < blockrows → fR i ≤ fR (i + 1)) (hres : AllRead S choose M fR fC bc es res)
    (nx : Nat) (hx : ∀ i, i ≤ bc → fC i ≤ nx) (x : Nat → T) :
    BlockRep (Cgbr.toBlockMat M (readGbr res fR fC offR offC rows columns blockrows bc es))
      bc fR fC (runKeys Element.block es) nx x (readEnts fR bc es) := by
  refine ⟨H.bcPos, runKeys_strict H, ?_, ?_, ?_, hR, fun i hi => hC i (Nat.le_of_lt hi), hmono, ?_, ?_⟩
  · intro κ hκ
    obtain ⟨e, he, rfl⟩ := (mem_runKeys Element.block es κ).1 hκ
    exact H.row e he
  · intro i hi
    have hi' : i ≤ blockrows := hi
    simp only [Cgbr.toBlockMat, Gbr.toBlockMat, readGbr, gbrOf]
    rw [Buf.get_full (by omega), if_pos hi']
  · intro k hk
    simp only [Cgbr.toBlockMat, Gbr.toBlockMat, readGbr, gbrOf]
    exact Buf.get_ok (by simpa using hk) (by simp only; rw [List.getElem?_eq_getElem hk]; rfl)
  · intro k hk ny yo y hy
    have hk' : k < (runs Element.block es).length := by simpa using hk
    have hm := (run_mem Element.block es k hk')
    obtain ⟨a, ha⟩ := List.exists_mem_of_ne_nil _ hm.2.1
    have hac := H.inC a (hm.1 a ha).1
    rw [(hm.1 a ha).2] at hac
    rw [runKeys_getElem _ _ _ hk'] at hy ⊢
    simp only [Cgbr.toBlockMat, Gbr.toBlockMat, readGbr, gbrOf]
    rw [Buf.get_ok (a := (res k).2.1) hk' (by simp [hk']), ok_bind]
    have hmul := (hres k hk').mul nx ny (fC (runKey Element.block (runs Element.block es)[k] % bc)) yo x y (by
      rw [blkCols_eq hk']
      have := hx (runKey Element.block (runs Element.block es)[k] % bc + 1) (Nat.mod_lt _ H.bcPos)
      omega) (by rw [blkRows_eq hk']; exact hy)
    rw [hmul, shift_readLoc H hk', visit_eq, spmvInOrder_eq_sum]
  · intro k hk e he
    have hk' : k < (runs Element.block es).length := by simpa using hk
    have hm := (run_mem Element.block es k hk').1
    rw [runKeys_getElem _ _ _ hk']
    have he' : e ∈ blkEnts fR bc es k := by
      unfold readEnts at he
      split at he
      · next h => subst h; exact List.mem_of_mem_tail he
      · exact he
    rw [blkEnts_eq fR bc es hk'] at he'
    obtain ⟨a, ha, rfl⟩ := List.mem_map.1 he'
    have := H.inR a (hm a ha).1
    simp only [← (hm a ha).2]
    omega

theorem read_partition {S : Nat} {choose : Nat → Nat → Nat → BlockChoice} {res : Results (MatrixBlock T) T}
    {rows columns workers : Nat} (hw : 0 < workers) (hres : AllRead S choose M fR fC bc es res) :
    ∃ P, partitionInit M workers (Cgbr.toBlockMat M (readGbr res fR fC offR offC rows columns blockrows bc es)) = .ok P ∧
      PartShape bc blockrows es P := by
  obtain ⟨P, h1, -, h2⟩ := partitionInit_shape (M := M)
    (Cgbr.toBlockMat M (readGbr res fR fC offR offC rows columns blockrows bc es)) (rowPtrOf bc (runKeys Element.block es)) hw (by
    intro i hi
    have hi' : i ≤ blockrows := hi
    simp only [Cgbr.toBlockMat, Gbr.toBlockMat, readGbr, gbrOf]
    rw [Buf.get_full (by omega), if_pos hi']; rfl) (fun i j h => rowPtrOf_mono _ _ h) (by
    intro k hk
    have hk' : k < (runs Element.block es).length := by
      have := rowPtrOf_le bc (runKeys Element.block es) blockrows
      rw [runKeys_length] at this
      exact Nat.lt_of_lt_of_le hk this
    obtain ⟨n, hn⟩ := (hres k hk').nnz
    refine ⟨n, ?_⟩
    simp only [Cgbr.toBlockMat, Gbr.toBlockMat, readGbr, gbrOf]
    rw [Buf.get_ok (a := (res k).2.1) hk' (by simp [hk']), ok_bind, hn])
  exact ⟨P, h1, h2⟩

end

/-- **C41.** Reading a blocked file into a `Cgbr`, any index width, any block type choice and whatever
the never-assigned member `balanced` holds.  Take any matrix with at least two entries, give the entries
block ids and sort them as the tools do, write them with `write_bin_blocked` and read the file:
`read_bin_blocked` returns 0 and a matrix whose product is that of all entries but the file's first. -/
theorem C41_cgbr_drops_first [NonUnitalNonAssocSemiring T] (hw0 : 0 < w) (hv : cv.Exact (fun _ => True))
    (S workers rows columns : Nat) (choose : Nat → Nat → Nat → BlockChoice) (balanced : Bool) (es : List (Element T))
    (offR : List Nat) (blockrows : Nat) (offC : List Nat) (blockcols : Nat)
    (PR : Partition offR blockrows rows) (PC : Partition offC blockcols columns)
    (hSR : BlocksAtMost offR S) (hSC : BlocksAtMost offC S)
    (hdense : ∀ rs cs n, rs ≤ S → cs ≤ S → n ≤ es.length → choose rs cs n = .dense → rs * cs < 256 ^ w)
    (hdup : (∀ rs cs n, choose rs cs n ≠ .dense) ∨ Distinct (ents es))
    (hw : 0 < workers) (htwo : 2 ≤ es.length) (hlen : 2 * (es.length + 2) ≤ 256 ^ w)
    (hgrid : blockrows * blockcols < 256 ^ w)
    (hrows : rows + 1 < 256 ^ w) (hcols : columns < 256 ^ w) (hbr : blockrows ≤ rows) (hbc : blockcols ≤ columns)
    (hin : InRange (ents es) rows columns) (d : Disk) (name : String)
    (hd : d.Works (6 * w + es.length * (3 * w + cv.size)) name) (fs : FS) :
    ∃ es1 e es' n fs' A, calculateBlockId (256 ^ w) es offR blockrows offC blockcols = .ok es1 ∧
      sortElementsBlocks es1 = e :: es' ∧ (ents (e :: es')).Perm (ents es) ∧ countBlocks (256 ^ w) (e :: es') = .ok n ∧
      writeBinBlocked w cv d fs name rows columns blockrows blockcols n (e :: es') = (0, fs') ∧
      readBlockedCgbr w S workers cv choose balanced fs' name offR blockrows offC blockcols = .ok (some (0, A)) ∧
      ∀ nx ny, columns ≤ nx → rows ≤ ny → ∀ x y : Nat → T,
        A.spmv (256 ^ w) (Buf.full nx x) (Buf.full ny y) = .ok (Buf.full ny (spmvSum (ents es') x y)) := by
  have hne : es ≠ [] := by rintro rfl; simp at htwo
  have H := prepared_blkIn (M := 256 ^ w) PR PC hne (by omega) hgrid hrows hcols hbr (by omega) hin
  have hpl := prepared_length (offR := offR) (blockrows := blockrows) (offC := offC) (blockcols := blockcols) (es := es)
  have hperm := ents_prepared_perm (offR := offR) (blockrows := blockrows) (offC := offC) (blockcols := blockcols) (es := es)
  have hcalc := calculateBlockId_spec (M := 256 ^ w) PR PC (by omega) (by omega) (by omega) hin
  have hcnt := countBlocks_spec (256 ^ w) _ H.ne H.len H.sortedB
  have hfits : ∀ e ∈ prepared offR blockrows offC blockcols es, Fits (256 ^ w) e := by
    intro e he
    have h1 := H.sent e he
    have h2 := hin _ (mem_prepared he).2
    simp only at h2
    exact ⟨by omega, by show e.row < _; omega, by show e.col < _; omega⟩
  obtain ⟨ps, hps⟩ : ∃ ps, ps = prepared offR blockrows offC blockcols es := ⟨_, rfl⟩
  have hsort : sortElementsBlocks (es.map (withKey (blockKey offR blockrows offC blockcols))) = ps := hps.symm
  rw [← hps] at H hpl hperm hcnt hfits
  have hmono : ∀ i, i < blockrows → offF offR i ≤ offF offR (i + 1) := fun i hi => PR.mono (Nat.le_succ i) hi
  -- the blocks
  have hok : ∀ k, k < (runs Element.block ps).length →
      ∃ r, MakesBlock (cooToMatrixBlock (256 ^ w) S choose : MakeBlock (MatrixBlock T) T) (MatrixBlock.spmv (256 ^ w)) (MatrixBlock.nonzeros (256 ^ w))
        (blkRows (offF offR) blockcols ps k) (blkCols (offF offC) blockcols ps k)
        (readLoc (offF offR) (offF offC) blockcols ps k) r := by
    intro k hk
    obtain ⟨⟨i, lo, hi, -, i1, i2, i3⟩, ⟨j, lo', hi', -, j1, j2, j3⟩⟩ := blk_sizes H PR PC hk
    have s1 : blkRows (offF offR) blockcols ps k ≤ S := by rw [i3]; exact hSR i lo hi i1 i2
    have s2 : blkCols (offF offC) blockcols ps k ≤ S := by rw [j3]; exact hSC j lo' hi' j1 j2
    obtain ⟨h1, h2, h3, h4, h5, h6⟩ := runLoc_ok H hk
    have hsub := readLoc_sublist (fR := offF offR) (fC := offF offC) (bc := blockcols) (es := ps) k
    have hsubE : (ents (readLoc (offF offR) (offF offC) blockcols ps k)).Sublist (ents (runLoc (offF offR) (offF offC) blockcols ps k)) :=
      hsub.map _
    have hll := hsub.length_le
    have hl : (ents (readLoc (offF offR) (offF offC) blockcols ps k)).length ≤ es.length := by
      have := (run_mem Element.block _ k hk).2.2
      have h7 := runLoc_length (fR := offF offR) (fC := offF offC) (bc := blockcols) hk
      rw [runLen_eq _ hk] at h7
      rw [ents, List.length_map]
      omega
    obtain ⟨a, ha⟩ := List.exists_mem_of_ne_nil _ h1
    have hacs := (h5 _ (List.mem_map_of_mem (f := NZ.toEnt) ha)).2
    refine makes_cgbr (256 ^ w) S choose false _ _ _ (by omega) (by omega) h3 (fun e he => h5 e (hsubE.subset he)) (h6.sublist hsub) ?_
    unfold cgbrOk
    split
    · exact ⟨s1, s2⟩
    · exact s2
    · next h =>
      refine ⟨hdense _ _ _ s1 s2 hl h, ?_⟩
      rcases hdup with h' | h'
      · exact absurd h (h' _ _ _)
      · exact (runLoc_distinct H (distinct_perm hperm.symm h') hk).sublist hsubE
  have h0 := runs_length_pos Element.block H.ne
  obtain ⟨res, hres⟩ := choose_results h0 hok
  have hres' : AllRead S choose (256 ^ w) (offF offR) (offF offC) blockcols ps res := hres
  obtain ⟨P, hP1, hP2⟩ := read_partition (offR := offR) (offC := offC) (rows := rows) (columns := columns)
    (blockrows := blockrows) hw hres'
  obtain ⟨e, es', hes⟩ : ∃ e es', ps = e :: es' := List.exists_cons_of_ne_nil H.ne
  have hrl := runs_length_le Element.block ps
  have hwr := writeBinBlocked_eq (cv := cv) hw0 hv d fs name rows columns blockrows blockcols (runs Element.block ps).length
    ps hd.opens
  have hk := hd.kept
  have hro := hd.room
  rw [List.take_of_length_le (by rw [blockFile_length hw0 hv, hpl]; omega)] at hwr
  refine ⟨_, e, es', (runs Element.block ps).length, _,
    ⟨readGbr res (offF offR) (offF offC) offR offC rows columns blockrows blockcols ps, balanced, P⟩, hcalc,
    by rw [hsort, hes], by rw [← hes]; exact hperm, by rw [← hes]; exact hcnt, by rw [← hes]; exact hwr, ?_, ?_⟩
  · -- reading
    have hfile := FS.set_same fs name (blockFile w cv rows columns blockrows blockcols (runs Element.block ps).length (ps.map recOf))
    conv at hfile => rhs; rw [blockFile_eq]
    have hco := readBlockedCommon_ok (w := w) hw0 _ name rows columns blockrows blockcols (runs Element.block ps).length ps.length
      offR offC _ hfile (by omega) (by omega) (by omega) (by omega) (by omega) (by omega)
      (by rw [PR.rd_ok blockrows (Nat.le_refl _), PR.at_last]) (by rw [PC.rd_ok blockcols (Nat.le_refl _), PC.at_last])
    obtain ⟨data, hdata⟩ : ∃ data, data = packed (idx w) [rows, columns, ps.length, blockrows, blockcols, (runs Element.block ps).length] ++
      ps.flatMap (recB w cv) := ⟨_, rfl⟩
    rw [← hdata] at hco
    have D : DataAt w cv data (6 * w) ps := ⟨by
      rw [hdata, List.drop_left']
      rw [packed_length (idx_exact hw0)]; rfl⟩
    unfold readBlockedCgbr
    rw [hco, ok_bind]
    simp only
    have hr0 := readRec_ok hw0 hv (⟨data, 6 * w⟩ : In) ⟨none, none, none, none⟩ e (hfits e (by rw [hes]; simp))
      (es'.flatMap (recB w cv)) (by show data.drop (6 * w) = _; rw [D.rest, hes, List.flatMap_cons])
    rw [hr0]
    simp only
    have hkey : e.block = runKey Element.block (runs Element.block ps)[0] := by
      have h1 := run_mem Element.block ps 0 h0
      have h2 := runs_getElem Element.block ps 0 h0 0 (List.length_pos_iff.2 h1.2.1)
      have h3 : ps[runStart Element.block ps 0 + 0]? = some e := by simp [runStart, hes]
      rw [h3] at h2
      injection h2 with h2
      rw [h2]
      exact (h1.1 _ (List.getElem_mem _)).2
    have hinit : (⟨⟨data, 6 * w + (3 * w + cv.size)⟩, ⟨none, some e.row, some e.col, some e.val⟩, some e.block, 0, 0,
        Buf.filled (addM (256 ^ w) blockrows 1) 0, Buf.uninit (runs Element.block ps).length,
        Buf.uninit (runs Element.block ps).length, Buf.filled 6 0, Buf.filled 6 0⟩ : CgbrRead T) =
        readState (offF offR) (offF offC) blockcols blockrows ps res data (6 * w) (3 * w + cv.size) 0
          ⟨none, some e.row, some e.col, some e.val⟩ (some (runKey Element.block (runs Element.block ps)[0])) := by
      have hbrM := H.brM
      rw [addM_eq (by omega), hkey]
      simp only [readState, recAt, runStart, List.take_zero, List.map_nil, List.sum_nil, List.range_zero, List.countP_nil,
        List.getElem?_nil, Option.map_none, if_true, Nat.zero_add, Nat.one_mul]
      rfl
    rw [hinit]
    obtain ⟨V, pb, hloop⟩ := cgbrRead_loop (S := S) (choose := choose) (offR := offR) (offC := offC) hw0 hv D hfits H
      (fun i hi => PR.rd_ok i hi) (fun i hi => PC.rd_ok i hi) (fun k hk => (hres k hk).ok) (fun k hk => (hres k hk).type)
      (by omega) ⟨none, some e.row, some e.col, some e.val⟩ h0
    rw [hloop, ok_bind]
    have hpre := prefixSum_count (M := 256 ^ w) (runKeys Element.block ps) (fun κ => κ / blockcols) (n := blockrows) (len := blockrows + 1) rfl
      (by rw [runKeys_length]; omega)
    simp only [readState]
    rw [List.take_of_length_le (by simp), hpre, ok_bind, Buf.get_full (by omega), ok_bind]
    simp only [Nat.le_refl, if_true]
    rw [runKeys_countP_row H, cassert_ok (by simp), ok_bind]
    have hP1' : partitionInit (256 ^ w) workers (Cgbr.toBlockMat (256 ^ w)
        (readGbr res (offF offR) (offF offC) offR offC rows columns blockrows blockcols ps)) = .ok P := hP1
    simp only [readGbr, gbrOf] at hP1' ⊢
    rw [hP1', ok_bind]
  · intro nx ny hnx hny x y
    have hxx : ∀ i, i ≤ blockcols → offF offC i ≤ nx := fun i hi => Nat.le_trans (PC.le_total hi) hnx
    have R := read_blockRep (offR := offR) (offC := offC) (rows := rows) (columns := columns) H (fun i hi => PR.rd_ok i hi)
      (fun i hi => PC.rd_ok i hi) hmono hres' nx hxx x
    have hbrM := H.brM
    have hlast := PR.at_last
    unfold Cgbr.spmv
    simp only
    rw [spmvBlocked_spec (M := 256 ^ w) R ny y (by show offF offR blockrows ≤ ny; omega) (by show blockrows < _; omega)
      (by show offF offR blockrows < _; omega) balanced P (by
        intro _ bi hbi
        obtain ⟨c, c1, c2⟩ := hP2 bi hbi
        have h1 := rowPtrOf_le blockcols (runKeys Element.block ps) (bi + 1)
        rw [runKeys_length] at h1
        have h3 := c2.short
        exact ⟨c, c1, by omega, c2.size, c2.mono, c2.first, c2.last⟩), allEnts_readEnts H, visit_eq, spmvInOrder_eq_sum, hes]
    rfl

/-- What is missing from the product of `C41_cgbr_drops_first`: exactly the first record's term. -/
theorem C41_missing_term [NonUnitalNonAssocSemiring T] (es : List (Element T)) (e : Element T) (es' : List (Element T))
    (h : (ents (e :: es')).Perm (ents es)) (x y : Nat → T) (i : Nat) :
    spmvSum (ents es) x y i = spmvSum (ents es') x y i + (if e.row = i then e.val * x e.col else 0) := by
  rw [← spmvSum_perm h]
  unfold spmvSum rowEntries ents
  simp only [List.map_cons, List.filter_cons]
  by_cases hi : e.row = i
  · simp only [NZ.toEnt, hi, beq_self_eq_true, if_true, List.map_cons, List.sum_cons]
    rw [add_comm (e.val * x e.col), add_assoc]
  · simp [NZ.toEnt, hi]

/-- **C41.** A file with a single record is worse: the reader compares a block number it never read. -/
theorem C41_single_uninit [NonUnitalNonAssocSemiring T] (hw0 : 0 < w) (hv : cv.Exact (fun _ => True))
    (S workers rows columns blockrows blockcols : Nat) (choose : Nat → Nat → Nat → BlockChoice) (balanced : Bool)
    (e : Element T) (offR offC : List Nat) (PR : Partition offR blockrows rows) (PC : Partition offC blockcols columns)
    (hr : rows < 256 ^ w) (hc : columns < 256 ^ w) (hbr : blockrows < 256 ^ w) (hbc : blockcols < 256 ^ w)
    (he : Fits (256 ^ w) e) (fs : FS) (name : String)
    (hf : fs name = some (blockFile w cv rows columns blockrows blockcols 1 ([e].map recOf))) :
    readBlockedCgbr w S workers cv choose balanced fs name offR blockrows offC blockcols = .error .uninit := by
  have hone : 1 < 256 ^ w := Nat.one_lt_pow (by omega) (by decide)
  rw [blockFile_eq] at hf
  have hco := readBlockedCommon_ok (w := w) hw0 _ name rows columns blockrows blockcols 1 1
      offR offC _ hf (by omega) (by omega) (by omega) (by omega) (by omega) (by omega)
      (by rw [PR.rd_ok blockrows (Nat.le_refl _), PR.at_last]) (by rw [PC.rd_ok blockcols (Nat.le_refl _), PC.at_last])
  have hl6 : (packed (idx w) [rows, columns, 1, blockrows, blockcols, 1]).length = 6 * w := by
    rw [packed_length (idx_exact hw0)]; rfl
  obtain ⟨data, hdata⟩ : ∃ data, data = packed (idx w) [rows, columns, 1, blockrows, blockcols, 1] ++
      [e].flatMap (recB w cv) := ⟨_, rfl⟩
  rw [← hdata] at hco
  have hrest : (⟨data, 6 * w⟩ : In).rest = recB w cv e ++ [] := by
    show data.drop (6 * w) = _
    rw [hdata, List.drop_left' hl6]; simp
  unfold readBlockedCgbr
  rw [hco, ok_bind]
  simp only
  rw [readRec_ok hw0 hv _ _ e he [] hrest]
  simp only
  rw [forLoop_step (by omega)]
  have hstep : ∀ s : CgbrRead T, s.f = ⟨data, 6 * w + (3 * w + cv.size)⟩ → s.vars.b = none →
      cgbrReadStep w S cv choose offR offC blockcols 0 s = .error .uninit := by
    intro s h1 h2
    unfold cgbrReadStep
    rw [readRec_eof hw0 hv _ _ (by
      rw [h1, In.rest_forward ⟨data, 6 * w⟩, hrest, List.append_nil, ← recB_length (w := w) hv e, List.drop_length])]
    simp only [h2]
  rw [hstep _ rfl rfl]
  rfl

/-- The hypotheses of C41 are met: the grid and entries of the example after C08 with COO blocks.  There
the file's first record has value 2, so with `x = 1` row 0 of the product read back lacks 2. -/
example : Partition [0, 2, 5] 2 5 ∧ Partition [0, 1, 4] 2 4 ∧ BlocksAtMost [0, 2, 5] (2 ^ 16) ∧
    BlocksAtMost [0, 1, 4] (2 ^ 16) ∧
    InRange (ents [(⟨4, 3, 5, 0⟩ : Element Int), ⟨0, 0, 2, 0⟩, ⟨1, 3, 7, 0⟩, ⟨4, 3, 1, 0⟩]) 5 4 ∧
    2 * (4 + 2) ≤ 256 ^ 4 ∧
    spmvSum [(⟨1, 3, 7⟩ : Ent Int), ⟨4, 3, 5⟩, ⟨4, 3, 1⟩] (fun _ => 1) (fun _ => 0) 0 = 0 ∧
    spmvSum [(⟨0, 0, 2⟩ : Ent Int), ⟨1, 3, 7⟩, ⟨4, 3, 5⟩, ⟨4, 3, 1⟩] (fun _ => 1) (fun _ => 0) 0 = 2 := by
  have key : ∀ (l : List Nat), (∀ a ∈ l, a ≤ 2 ^ 16) → BlocksAtMost l (2 ^ 16) := by
    intro l hl i lo hi h1 h2
    have := hl hi (List.mem_of_getElem? h2)
    omega
  exact ⟨⟨rfl, rfl, rfl, by decide⟩, ⟨rfl, rfl, rfl, by decide⟩, key _ (by decide), key _ (by decide), by decide, by decide,
    by decide, by decide⟩

end Gsb
