import Verif.Props.Cross
import Verif.Props.Cgbr
import Verif.Spec.Counts
/-
C48 (reported counts), C53 (the COO argument after construction), C19 (partition of block-rows).
-/
namespace Gsb
variable {T : Type}

/-! ### C48 -/

theorem inBlock_offF {off : List Nat} {n total : Nat} (P : Partition off n total) {v : Nat} (hv : v < total) :
    InBlockRange off (bidx off n v) v := by
  have h1 := P.bidx_lt hv
  have h2 := P.len
  exact ⟨_, _, List.getElem?_eq_getElem (show bidx off n v < off.length by omega),
    List.getElem?_eq_getElem (show bidx off n v + 1 < off.length by omega),
    by rw [← offF_eq]; exact P.bidx_lo hv, by rw [← offF_eq]; exact P.bidx_hi hv⟩

theorem runs_ncard {M rows columns : Nat} {es : List (Element T)} {offR : List Nat} {blockrows : Nat} {offC : List Nat}
    {blockcols : Nat} (PR : Partition offR blockrows rows) (PC : Partition offC blockcols columns)
    (H : BlkIn M (offF offR) (offF offC) blockrows blockcols (prepared offR blockrows offC blockcols es))
    (hin : InRange (ents es) rows columns) :
    (runs Element.block (prepared offR blockrows offC blockcols es)).length = (nonEmptyBlocks offR offC (ents es)).ncard := by
  have hnd : (runKeys Element.block (prepared offR blockrows offC blockcols es)).Nodup :=
    (runKeys_strict H).imp (fun h => Nat.ne_of_lt h)
  have hinj : Function.Injective (fun κ : Nat => (κ / blockcols, κ % blockcols)) := by
    intro a b h
    simp only [Prod.mk.injEq] at h
    rw [← Nat.div_add_mod a blockcols, ← Nat.div_add_mod b blockcols, h.1, h.2]
  have hset : nonEmptyBlocks offR offC (ents es) =
      (((runKeys Element.block (prepared offR blockrows offC blockcols es)).map
        (fun κ => (κ / blockcols, κ % blockcols))).toFinset : Set (Nat × Nat)) := by
    ext ⟨i, j⟩
    simp only [nonEmptyBlocks, Set.mem_ofPred_eq, List.coe_toFinset, List.mem_map, Prod.mk.injEq]
    constructor
    · rintro ⟨e, he, h1, h2⟩
      have hr := hin e he
      have e1 := C21_unique offR blockrows rows _ PR _ _ h1 (inBlock_offF PR hr.1)
      have e2 := C21_unique offC blockcols columns _ PC _ _ h2 (inBlock_offF PC hr.2)
      refine ⟨blockKey offR blockrows offC blockcols e.row e.col, ?_, ?_⟩
      · rw [mem_runKeys]
        have he' := (ents_prepared_perm (offR := offR) (blockrows := blockrows) (offC := offC) (blockcols := blockcols)
          (es := es)).mem_iff.2 he
        obtain ⟨a, ha, rfl⟩ := List.mem_map.1 he'
        exact ⟨a, ha, (mem_prepared ha).1⟩
      · have hc := PC.bidx_lt hr.2
        unfold blockKey
        rw [key_div hc, key_mod hc]
        exact ⟨e1.symm, e2.symm⟩
    · rintro ⟨κ, hκ, rfl, rfl⟩
      obtain ⟨a, ha, rfl⟩ := (mem_runKeys _ _ _).1 hκ
      obtain ⟨h1, h2⟩ := mem_prepared ha
      have hr := hin _ h2
      refine ⟨_, h2, ?_, ?_⟩
      · rw [h1]; unfold blockKey; rw [key_div (PC.bidx_lt hr.2)]; exact inBlock_offF PR hr.1
      · rw [h1]; unfold blockKey; rw [key_mod (PC.bidx_lt hr.2)]; exact inBlock_offF PC hr.2
  rw [hset, Set.ncard_coe_finset, List.toFinset_card_of_nodup (hnd.map hinj), List.length_map, runKeys_length]

/-- **C48**, unblocked formats: `nonzeros()` is the number of entries given. -/
theorem C48_csr_nonzeros {ε : Type} [NZ ε T] (M rows columns : Nat) (es : List ε) (hnnz : es.length < M)
    (hrows : rows + 1 < M) (hin : InRange (ents es) rows columns) :
    (∃ A es', (cooToCsr M es rows columns : C (Csr T × List ε)) = .ok (A, es') ∧ A.nonzeros = .ok es.length ∧
      A.rows = rows ∧ A.columns = columns) ∧
    (∃ A es', (cooToCsr2 M es rows columns : C (Csr2 T × List ε)) = .ok (A, es') ∧ A.nonzeros = .ok es.length ∧
      A.rows = rows ∧ A.columns = columns) := by
  have hrow : ∀ e ∈ sortTriplets es, (NZ.toEnt e).row < rows := fun e he =>
    (hin _ (List.mem_map_of_mem (mem_sortTriplets.1 he))).1
  have hs : (sortTriplets es).Pairwise (fun a b => (NZ.toEnt a).row ≤ (NZ.toEnt b).row) := sortTriplets_sorted es
  have hcount : (sortTriplets es).countP (fun e => decide ((NZ.toEnt e).row < rows)) = es.length := by
    rw [List.countP_eq_length.2 (fun e he => by simpa using hrow e he), length_sortTriplets]
  refine ⟨⟨csrOf M (sortTriplets es) rows columns, sortTriplets es, ?_, ?_, rfl, rfl⟩,
    ⟨_, _, cooToCsr2_spec M es rows columns false hnnz hrows (fun e he => (hin _ (List.mem_map_of_mem he)).1), ?_, rfl, rfl⟩⟩
  · unfold cooToCsr
    simp only [Bool.false_eq_true, if_false]
    rw [csrBuild_spec M M _ rows columns (by rw [length_sortTriplets]; exact hnnz) hrows hrow, ok_bind]
  · have R := csrOf_rep M (sortTriplets es) rows columns hrow hs
    unfold Csr.nonzeros
    refine Buf.get_ok R.rpLen ?_
    refine (R.rpDat rows (Nat.le_refl _)).trans ?_
    simp only [truncCols, ents, List.countP_map, Function.comp_def, hcount]
  · simp only [Bool.false_eq_true, if_false]
    unfold Csr2.nonzeros
    refine Buf.get_ok (by simp [csr2Of]) ?_
    simp only [csr2Of, Buf.full_dat, Nat.le_refl, if_true, hcount]

/-- **C48**, CSBR and CSBR2: `nnz` is the number of entries, `nnzblocks` the number of blocks holding one. -/
theorem C48_csbr_counts [Add T] [Mul T] (M workers rows columns : Nat) (es : List (Element T))
    (offR : List Nat) (blockrows : Nat) (offC : List Nat) (blockcols : Nat)
    (PR : Partition offR blockrows rows) (PC : Partition offC blockcols columns)
    (hw : 0 < workers) (hne : es ≠ []) (hlen : es.length < M) (hgrid : blockrows * blockcols < M)
    (hrows : rows + 1 < M) (hcols : columns < M) (hbr : blockrows ≤ rows) (hbc : blockcols ≤ columns)
    (hin : InRange (ents es) rows columns) :
    (∃ A es', cooToCsbr M workers es rows columns offR blockrows offC blockcols = .ok (A, es') ∧
      A.nnz = es.length ∧ A.nnzblocks = (nonEmptyBlocks offR offC (ents es)).ncard) ∧
    (∃ A es', cooToCsbr2 M es rows columns offR blockrows offC blockcols = .ok (A, es') ∧
      A.nnz = es.length ∧ A.nnzblocks = (nonEmptyBlocks offR offC (ents es)).ncard) := by
  have H := prepared_blkIn (M := M) PR PC hne hlen hgrid hrows hcols hbr (by omega) hin
  obtain ⟨P, hP⟩ := csbr_main (workers := workers) hw PR PC hne hlen hgrid hrows hcols hbr hbc hin
  exact ⟨⟨_, _, hP, prepared_length, runs_ncard PR PC H hin⟩,
    ⟨_, _, csbr2_main PR PC hne hlen hgrid hrows hcols hbr hbc hin, prepared_length, runs_ncard PR PC H hin⟩⟩

/-- The type tag of a block: `BLOCK_COO = 0`, `BLOCK_CSR = 1`, `BLOCK_DENSE = 2` (typedefs.h). -/
def MatrixBlock.tag : MatrixBlock T → Nat
  | .coo _ => 0
  | .csr _ => 1
  | .dense _ => 2

theorem cgbr_block_info [Zero T] {M S : Nat} {choose : Nat → Nat → Nat → BlockChoice} {rs cs : Nat} {g : List (Element T)}
    {r : Nat × MatrixBlock T × List (Element T)} (h : cooToMatrixBlock M S choose rs cs g = .ok r)
    (hlen : g.length < M) (hr : rs + 1 < M) (hin : InRange (ents g) rs cs) (hs : g.Pairwise (fun a b => a.row ≤ b.row)) :
    r.1 = r.2.1.tag ∧ r.2.2.Perm g ∧ (r.2.1.tag ≠ 2 → r.2.1.nonzeros M = .ok g.length) ∧
      (r.2.1.tag = 2 → r.2.1.nonzeros M = .ok (rs * cs % M)) := by
  have hrow : ∀ e ∈ g, (NZ.toEnt e : Ent T).row < rs := fun e he => (hin _ (List.mem_map_of_mem (f := NZ.toEnt) he)).1
  unfold cooToMatrixBlock at h
  split at h
  · cases hc : (cooToBlockCoo M S g : C (Coo T × List (Element T))) with
    | error e => rw [hc] at h; simp at h
    | ok p =>
      rw [hc, ok_bind] at h
      injection h with h
      subst h
      unfold cooToBlockCoo at hc
      generalize (if S < M then _ else _ : C Unit) = u at hc
      cases u with
      | error e => simp at hc
      | ok _ =>
        rw [ok_bind] at hc
        unfold cooFill at hc
        simp only at hc
        generalize forLoop 0 (sortTripletsMorton M g).length _ _ = w at hc
        cases w with
        | error e => simp at hc
        | ok w =>
          rw [ok_bind, ok_bind] at hc
          injection hc with hc
          subst hc
          refine ⟨rfl, sortMorton_perm M g, fun _ => ?_, fun h => by cases h⟩
          simp [MatrixBlock.nonzeros, (sortMorton_perm M g).length_eq]
  · unfold cooToBlockCsr at h
    simp only [if_true] at h
    rw [csrBuild_spec M S g rs cs hlen hr hrow, ok_bind, ok_bind] at h
    injection h with h
    subst h
    refine ⟨rfl, List.Perm.refl _, fun _ => ?_, fun h => by cases h⟩
    have R := csrOf_rep S g rs cs hrow hs
    show Csr.nonzeros _ = _
    unfold Csr.nonzeros
    refine Buf.get_ok R.rpLen ?_
    refine (R.rpDat rs (Nat.le_refl _)).trans ?_
    simp only [truncCols, ents, List.countP_map, Function.comp_def]
    rw [List.countP_eq_length.2]
    intro e he
    simpa [csrOf] using hrow e he
  · cases hc : (cooToDense M g rs cs : C (Dense T)) with
    | error e => rw [hc] at h; simp at h
    | ok p =>
      rw [hc, ok_bind] at h
      injection h with h
      subst h
      refine ⟨rfl, List.Perm.refl _, fun h => absurd rfl h, fun _ => ?_⟩
      unfold cooToDense at hc
      simp only at hc
      generalize (cassert _ : C Unit) = u at hc
      cases u with
      | error e => simp at hc
      | ok _ =>
        rw [ok_bind] at hc
        generalize (denseFill M g cs _ : C (Buf T)) = w at hc
        cases w with
        | error e => simp at hc
        | ok w => rw [ok_bind] at hc; cases hc; rfl

/-- **C48**, CGBR: `nnz`, `nnzblocks`, what `nonzeros()` of a block returns — its number of entries, or for a dense block its area, modulo
the index type —, and for each of the 6 type tags the number of blocks of that type and of their entries; over all types they sum to `nnzblocks` and `nnz`. -/
theorem C48_cgbr_counts [NonUnitalNonAssocSemiring T] (M S B workers rows columns : Nat) (choose : Nat → Nat → Nat → BlockChoice)
    (heavy : Nat → Nat → List Nat → Bool) (es : List (Element T))
    (offR : List Nat) (blockrows : Nat) (offC : List Nat) (blockcols : Nat)
    (PR : Partition offR blockrows rows) (PC : Partition offC blockcols columns)
    (hBS : B ≤ S) (hSR : BlocksAtMost offR B) (hSC : BlocksAtMost offC B)
    (hdense : ∀ rs cs n, rs ≤ B → cs ≤ B → n ≤ es.length → choose rs cs n = .dense → rs * cs < M)
    (hdup : (∀ rs cs n, choose rs cs n ≠ .dense) ∨ Distinct (ents es))
    (hw : 0 < workers) (hne : es ≠ []) (hlen : 2 * (es.length + 2) ≤ M) (hgrid : blockrows * blockcols < M)
    (hrows : rows + 1 < M) (hcols : columns < M) (hbr : blockrows ≤ rows) (hbc : blockcols ≤ columns)
    (hin : InRange (ents es) rows columns) :
    ∃ A es', cooToCgbr M S workers choose heavy es rows columns offR blockrows offC blockcols = .ok (A, es') ∧
      A.base.nnz = es.length ∧ A.base.nnzblocks = (nonEmptyBlocks offR offC (ents es)).ncard ∧
      ∃ (blk : Nat → MatrixBlock T) (size cnt nz : Nat → Nat),
        (∀ k, k < A.base.nnzblocks → A.base.blocks.get k = .ok (blk k) ∧
          ((blk k).tag ≠ 2 → (blk k).nonzeros M = .ok (size k)) ∧
          ∃ i j, i < blockrows ∧ A.base.blockcolInd.get k = .ok j ∧ ((blk k).tag = 2 →
            (blk k).nonzeros M = .ok ((offF offR (i + 1) - offF offR i) * (offF offC (j + 1) - offF offC j) % M))) ∧
        ((List.range A.base.nnzblocks).map size).sum = es.length ∧
        (∀ t, t < 6 → A.base.typeBlocks.get t = .ok (cnt t) ∧ A.base.typeNnz.get t = .ok (nz t) ∧
          cnt t = ((List.range A.base.nnzblocks).filter (fun k => (blk k).tag == t)).length ∧
          nz t = (((List.range A.base.nnzblocks).filter (fun k => (blk k).tag == t)).map size).sum) ∧
        ((List.range 6).map cnt).sum = A.base.nnzblocks ∧ ((List.range 6).map nz).sum = es.length := by
  obtain ⟨res, b, P, h1, h2, -, -⟩ := cgbr_mainB M S B workers rows columns choose heavy es offR blockrows offC blockcols PR PC
    hBS hSR hSC hdense hdup hw hne hlen hgrid hrows hcols hbr hbc hin
  have H := prepared_blkIn (M := M) PR PC hne (by omega) hgrid hrows hcols hbr (by omega) hin
  refine ⟨_, _, h1, prepared_length, runs_ncard PR PC H hin, fun k => (res k).2.1,
    runLen (prepared offR blockrows offC blockcols es), cntType res (runs Element.block (prepared offR blockrows offC blockcols es)).length,
    nnzType res (runLen (prepared offR blockrows offC blockcols es)) (runs Element.block (prepared offR blockrows offC blockcols es)).length, ?_, ?_, ?_, ?_, ?_⟩
  · intro k hk
    have hk' : k < (runs Element.block (prepared offR blockrows offC blockcols es)).length := hk
    obtain ⟨a1, a2, a3, a4, a5, a6⟩ := runLoc_ok H hk'
    have hi := cgbr_block_info (h2 k hk').ok a2 a3 a5 a6
    have hκ : k < (runKeys Element.block (prepared offR blockrows offC blockcols es)).length := by simpa using hk'
    refine ⟨Buf.get_ok hk' (by simp [gbrOf, hk']), fun ht => ?_,
      (runKeys Element.block (prepared offR blockrows offC blockcols es))[k] / blockcols,
      (runKeys Element.block (prepared offR blockrows offC blockcols es))[k] % blockcols, ?_,
      Buf.get_ok hk' (by simp only [gbrOf]; rw [List.getElem?_eq_getElem hκ]; rfl), fun ht => ?_⟩
    · rw [hi.2.2.1 ht, runLoc_length hk']
    · obtain ⟨e, he, h3⟩ := (mem_runKeys Element.block _ _).1 (List.getElem_mem hκ)
      rw [← h3]
      exact H.row e he
    · rw [hi.2.2.2 ht, blkRows_eq hk', blkCols_eq hk', runKeys_getElem _ _ _ hk']
  · show ((List.range (runs Element.block _).length).map _).sum = _
    rw [sum_runLen _ _ (Nat.le_refl _), runStart_length, prepared_length]
  · intro t ht
    have htag : ∀ k ∈ List.range (runs Element.block (prepared offR blockrows offC blockcols es)).length,
        ((res k).2.1.tag == t) = ((res k).1 == t) := by
      intro k hk
      have hk' := List.mem_range.1 hk
      obtain ⟨a1, a2, a3, a4, a5, a6⟩ := runLoc_ok H hk'
      rw [(cgbr_block_info (h2 k hk').ok a2 a3 a5 a6).1]
    refine ⟨Buf.get_full ht, Buf.get_full ht, ?_, ?_⟩
    · show _ = ((List.range (runs Element.block _).length).filter _).length
      rw [List.filter_congr htag, ← List.countP_eq_length_filter]; rfl
    · show _ = (((List.range (runs Element.block _).length).filter _).map _).sum
      rw [List.filter_congr htag]; rfl
  · exact sum_range_cntType res _ (fun k hk => (h2 k hk).type)
  · rw [sum_range_nnzType res _ _ (fun k hk => (h2 k hk).type), sum_runLen _ _ (Nat.le_refl _), runStart_length, prepared_length]

/-- **C48**, CGBR2 with any right factory: the totals per type are over the blocks for which the factory returned that
type. -/
theorem C48_cgbr2_counts [AddCommMonoid T] [Mul T] (M S workers rows columns : Nat) (factory : MakeBlock (BlockObj T) T) (D : Prop)
    (es : List (Element T)) (offR : List Nat) (blockrows : Nat) (offC : List Nat) (blockcols : Nat)
    (PR : Partition offR blockrows rows) (PC : Partition offC blockcols columns)
    (hSR : BlocksAtMost offR S) (hSC : BlocksAtMost offC S)
    (hf : FactoryRight M S D factory) (hdup : D → Distinct (ents es))
    (hw : 0 < workers) (hne : es ≠ []) (hlen : 2 * (es.length + 2) ≤ M) (hgrid : blockrows * blockcols < M)
    (hrows : rows + 1 < M) (hcols : columns < M) (hbr : blockrows ≤ rows) (hbc : blockcols ≤ columns)
    (hin : InRange (ents es) rows columns) :
    ∃ A es', cgbr2Create M workers factory es rows columns offR blockrows offC blockcols = .ok (A, es') ∧
      A.base.nnz = es.length ∧ A.base.nnzblocks = (nonEmptyBlocks offR offC (ents es)).ncard ∧
      ∃ (blk : Nat → BlockObj T) (ty size cnt nz : Nat → Nat),
        (∀ k, k < A.base.nnzblocks → A.base.blocks.get k = .ok (blk k) ∧
          ∃ rs cs g g', g.length = size k ∧ factory rs cs g = .ok (ty k, blk k, g')) ∧
        ((List.range A.base.nnzblocks).map size).sum = es.length ∧
        (∀ t, t < 6 → A.base.typeBlocks.get t = .ok (cnt t) ∧ A.base.typeNnz.get t = .ok (nz t) ∧
          cnt t = ((List.range A.base.nnzblocks).filter (fun k => ty k == t)).length ∧
          nz t = (((List.range A.base.nnzblocks).filter (fun k => ty k == t)).map size).sum) ∧
        ((List.range 6).map cnt).sum = A.base.nnzblocks ∧ ((List.range 6).map nz).sum = es.length := by
  obtain ⟨res, P, h1, h2, -, -⟩ := cgbr2_main M S workers rows columns factory D es offR blockrows offC blockcols PR PC hSR hSC
    (fun rs cs L => rs ≤ S ∧ cs ≤ S ∧ (D → Distinct L)) (fun rs cs L a b _ d => ⟨a, b, d⟩)
    (by
      intro rs cs g a1 a2 a3 a4 a5 a6 a7
      obtain ⟨t, b, g', b1, b2, b3, b4⟩ := hf rs cs g a1 a2 a3 a4 a7.1 a7.2.1 a5 a6 a7.2.2
      exact ⟨(t, b, g'), b1, b2, b3, b4, ⟨_, rfl⟩⟩)
    hdup hw hne hlen hgrid hrows hcols hbr hbc hin
  have H := prepared_blkIn (M := M) PR PC hne (by omega) hgrid hrows hcols hbr (by omega) hin
  refine ⟨_, _, h1, prepared_length, runs_ncard PR PC H hin, fun k => (res k).2.1, fun k => (res k).1,
    runLen (prepared offR blockrows offC blockcols es), cntType res (runs Element.block (prepared offR blockrows offC blockcols es)).length,
    nnzType res (runLen (prepared offR blockrows offC blockcols es)) (runs Element.block (prepared offR blockrows offC blockcols es)).length, ?_, ?_, ?_, ?_, ?_⟩
  · intro k hk
    have hk' : k < (runs Element.block (prepared offR blockrows offC blockcols es)).length := hk
    exact ⟨Buf.get_ok hk' (by simp [gbrOf, hk']), _, _, _, _, runLoc_length hk', (h2 k hk').ok⟩
  · show ((List.range (runs Element.block _).length).map _).sum = _
    rw [sum_runLen _ _ (Nat.le_refl _), runStart_length, prepared_length]
  · intro t ht
    refine ⟨Buf.get_full ht, Buf.get_full ht, ?_, ?_⟩
    · show _ = ((List.range (runs Element.block _).length).filter _).length
      rw [← List.countP_eq_length_filter]; rfl
    · rfl
  · exact sum_range_cntType res _ (fun k hk => (h2 k hk).type)
  · rw [sum_range_nnzType res _ _ (fun k hk => (h2 k hk).type), sum_runLen _ _ (Nat.le_refl _), runStart_length, prepared_length]

/-- Two of the four blocks of a 2×2 partition hold an entry: `nonEmptyBlocks` is not trivially everything. -/
example : nonEmptyBlocks [0, 2, 5] [0, 1, 4] (ents [(⟨4, 3, 5, 0⟩ : Element Int), ⟨0, 0, 2, 0⟩, ⟨4, 2, 1, 0⟩]) = {(1, 1), (0, 0)} := by
  have PR : Partition [0, 2, 5] 2 5 := ⟨rfl, rfl, rfl, by decide⟩
  have PC : Partition [0, 1, 4] 2 4 := ⟨rfl, rfl, rfl, by decide⟩
  have r4 : InBlockRange [0, 2, 5] 1 4 := ⟨2, 5, rfl, rfl, by decide, by decide⟩
  have r0 : InBlockRange [0, 2, 5] 0 0 := ⟨0, 2, rfl, rfl, by decide, by decide⟩
  have c3 : InBlockRange [0, 1, 4] 1 3 := ⟨1, 4, rfl, rfl, by decide, by decide⟩
  have c2 : InBlockRange [0, 1, 4] 1 2 := ⟨1, 4, rfl, rfl, by decide, by decide⟩
  have c0 : InBlockRange [0, 1, 4] 0 0 := ⟨0, 1, rfl, rfl, by decide, by decide⟩
  ext ⟨i, j⟩
  simp only [nonEmptyBlocks, ents, NZ.toEnt, List.map_cons, List.map_nil, List.mem_cons, List.not_mem_nil, or_false,
    exists_eq_or_imp, exists_eq_left, Set.mem_ofPred_eq, Set.mem_insert_iff, Set.mem_singleton_iff, Prod.mk.injEq]
  constructor
  · rintro (⟨h1, h2⟩ | ⟨h1, h2⟩ | ⟨h1, h2⟩)
    · exact .inl ⟨C21_unique _ _ _ _ PR _ _ h1 r4, C21_unique _ _ _ _ PC _ _ h2 c3⟩
    · exact .inr ⟨C21_unique _ _ _ _ PR _ _ h1 r0, C21_unique _ _ _ _ PC _ _ h2 c0⟩
    · exact .inl ⟨C21_unique _ _ _ _ PR _ _ h1 r4, C21_unique _ _ _ _ PC _ _ h2 c2⟩
  · rintro (⟨rfl, rfl⟩ | ⟨rfl, rfl⟩)
    · exact .inl ⟨r4, c3⟩
    · exact .inr (.inl ⟨r0, c0⟩)

/-! ### C53 -/

/-- **C53**, formats that only sort their argument: the array left behind has the same entries with the same
multiplicities, so it still denotes the same matrix. -/
theorem C53_input_kept [Add T] [Mul T] (M S workers rows columns width bs : Nat) (es : List (Element T))
    (offR : List Nat) (blockrows : Nat) (offC : List Nat) (blockcols : Nat)
    (PR : Partition offR blockrows rows) (PC : Partition offC blockcols columns)
    (hw : 0 < workers) (hne : es ≠ []) (hlen : es.length + 1 < M) (hgrid : blockrows * blockcols < M)
    (hbr : blockrows ≤ rows) (hbc : blockcols ≤ columns) (hwidth : 0 < width) (hbs : 0 < bs)
    (hgrid3 : ((rows + bs - 1) / bs) * ((columns + bs - 1) / bs) < M)
    (hrows : rows + bs + width < M) (hcols : columns + bs < M)
    (hin : InRange (ents es) rows columns) :
    (∃ A es', cooToCsr M es rows columns = .ok (A, es') ∧ es'.Perm es) ∧
    (∃ A es', cooToCsr2 M es rows columns = .ok (A, es') ∧ es'.Perm es) ∧
    (∃ A es', cooToCswr M S es rows columns width = .ok (A, es') ∧ es'.Perm es) ∧
    (∃ A es', cooToCsbr M workers es rows columns offR blockrows offC blockcols = .ok (A, es') ∧ (ents es').Perm (ents es)) ∧
    (∃ A es', cooToCsbr2 M es rows columns offR blockrows offC blockcols = .ok (A, es') ∧ (ents es').Perm (ents es)) ∧
    (∃ A es', cooToCsbr3 M S es rows columns bs = .ok (A, es') ∧ (ents es').Perm (ents es)) := by
  refine ⟨⟨csrOf M (sortTriplets es) rows columns, sortTriplets es, ?_, sortTriplets_perm es true⟩,
    ⟨_, _, cooToCsr2_spec M es rows columns false (by omega) (by omega) (fun e he => (hin _ (List.mem_map_of_mem he)).1), ?_⟩,
    ⟨_, _, cooToCswr_spec M S es rows columns width hwidth (by omega) (by omega) (fun e he => (hin e he).1),
      List.mergeSort_perm _ _⟩, ?_,
    ⟨_, _, csbr2_main PR PC hne (by omega) hgrid (by omega) (by omega) hbr hbc hin, ents_prepared_perm⟩,
    ⟨_, _, csbr3_main hbs hne hlen hgrid3 (by omega) hcols hin, prepared3_ents_perm⟩⟩
  · unfold cooToCsr
    simp only [Bool.false_eq_true, if_false]
    rw [csrBuild_spec M M _ rows columns (by rw [length_sortTriplets]; omega) (by omega)
      (fun e he => (hin _ (List.mem_map_of_mem (mem_sortTriplets.1 he))).1), ok_bind]
  · simp only [Bool.false_eq_true, if_false]; exact sortTriplets_perm es true
  · obtain ⟨P, hP⟩ := csbr_main (workers := workers) hw PR PC hne (by omega) hgrid (by omega) (by omega) hbr hbc hin
    exact ⟨_, _, hP, ents_prepared_perm⟩

theorem flatten_range_perm {α : Type} (G : List (List α)) (f : Nat → List α) (h : ∀ k (hk : k < G.length), (f k).Perm G[k]) :
    ((List.range G.length).map f).flatten.Perm G.flatten := by
  induction G using List.reverseRecOn with
  | nil => simp
  | append_singleton G g ih =>
    rw [List.length_append, List.length_singleton, List.range_succ, List.map_append, List.flatten_append, List.flatten_append]
    refine List.Perm.append (ih (fun k hk => ?_)) ?_
    · have := h k (by simp; omega)
      rwa [List.getElem_append_left hk] at this
    · have := h G.length (by simp)
      simpa using this

/-- **C53**, CGBR: the array is left holding each entry with *block-local* indices — the offset of its block-row and
block-column subtracted. -/
theorem C53_cgbr_localizes [NonUnitalNonAssocSemiring T] (M S B workers rows columns : Nat) (choose : Nat → Nat → Nat → BlockChoice)
    (heavy : Nat → Nat → List Nat → Bool) (es : List (Element T))
    (offR : List Nat) (blockrows : Nat) (offC : List Nat) (blockcols : Nat)
    (PR : Partition offR blockrows rows) (PC : Partition offC blockcols columns)
    (hBS : B ≤ S) (hSR : BlocksAtMost offR B) (hSC : BlocksAtMost offC B)
    (hdense : ∀ rs cs n, rs ≤ B → cs ≤ B → n ≤ es.length → choose rs cs n = .dense → rs * cs < M)
    (hdup : (∀ rs cs n, choose rs cs n ≠ .dense) ∨ Distinct (ents es))
    (hw : 0 < workers) (hne : es ≠ []) (hlen : 2 * (es.length + 2) ≤ M) (hgrid : blockrows * blockcols < M)
    (hrows : rows + 1 < M) (hcols : columns < M) (hbr : blockrows ≤ rows) (hbc : blockcols ≤ columns)
    (hin : InRange (ents es) rows columns) :
    ∃ A es', cooToCgbr M S workers choose heavy es rows columns offR blockrows offC blockcols = .ok (A, es') ∧
      (∃ loc : Ent T → Ent T, (ents es').Perm ((ents es).map loc) ∧
        ∀ e ∈ ents es, ∃ i j lo hi, InBlockRange offR i e.row ∧ InBlockRange offC j e.col ∧
          offR[i]? = some lo ∧ offC[j]? = some hi ∧ loc e = ⟨e.row - lo, e.col - hi, e.val⟩) := by
  obtain ⟨res, b, P, h1, h2, -, -⟩ := cgbr_mainB M S B workers rows columns choose heavy es offR blockrows offC blockcols PR PC
    hBS hSR hSC hdense hdup hw hne hlen hgrid hrows hcols hbr hbc hin
  have H := prepared_blkIn (M := M) PR PC hne (by omega) hgrid hrows hcols hbr (by omega) hin
  refine ⟨_, _, h1, fun e => ⟨e.row - offF offR (bidx offR blockrows e.row), e.col - offF offC (bidx offC blockcols e.col), e.val⟩, ?_, ?_⟩
  · generalize hp : prepared offR blockrows offC blockcols es = p at *
    let lc : Element T → Element T := fun e => locElem (offF offR (e.block / blockcols)) (offF offC (e.block % blockcols)) e
    have hG : ((runs Element.block p).map (fun g => g.map lc)).flatten = p.map lc := by
      rw [← List.map_flatten, (runsOK Element.block p).flat]
    have hperm : ((List.range (runs Element.block p).length).map (fun j => (res j).2.2)).flatten.Perm (p.map lc) := by
      rw [← hG]
      have := flatten_range_perm ((runs Element.block p).map (fun g => g.map lc)) (fun j => (res j).2.2) (by
        intro k hk
        have hk' : k < (runs Element.block p).length := by simpa using hk
        obtain ⟨a1, a2, a3, a4, a5, a6⟩ := runLoc_ok H hk'
        have hi := cgbr_block_info (h2 k hk').ok a2 a3 a5 a6
        rw [List.getElem_map]
        rw [runLoc_eq hk'] at hi
        exact hi.2.1)
      simpa using this
    refine (hperm.map NZ.toEnt).trans ?_
    have hpe : (ents p).Perm (ents es) := by rw [← hp]; exact ents_prepared_perm
    refine List.Perm.trans ?_ (hpe.map _)
    unfold ents
    rw [List.map_map, List.map_map]
    refine List.Perm.of_eq (List.map_congr_left (fun e he => ?_))
    rw [← hp] at he
    obtain ⟨q1, q2⟩ := mem_prepared he
    have hr := hin _ q2
    simp only [Function.comp, lc, locElem, NZ.toEnt, q1, blockKey]
    rw [key_div (PC.bidx_lt hr.2), key_mod (PC.bidx_lt hr.2)]
  · intro e he
    have hr := hin _ he
    have l1 := PR.bidx_lt hr.1
    have l2 := PC.bidx_lt hr.2
    have l3 := PR.len
    have l4 := PC.len
    refine ⟨_, _, _, _, inBlock_offF PR hr.1, inBlock_offF PC hr.2, List.getElem?_eq_getElem (by omega),
      List.getElem?_eq_getElem (by omega), ?_⟩
    rw [← offF_eq, ← offF_eq]

/-- **C53**, CGBR: as soon as one entry lies in a block that does not start at row 0, the array left behind does not
denote the input matrix any more (its entries are not the input's, in any order). -/
theorem C53_cgbr_destroys [NonUnitalNonAssocSemiring T] (M S B workers rows columns : Nat) (choose : Nat → Nat → Nat → BlockChoice)
    (heavy : Nat → Nat → List Nat → Bool) (es : List (Element T))
    (offR : List Nat) (blockrows : Nat) (offC : List Nat) (blockcols : Nat)
    (PR : Partition offR blockrows rows) (PC : Partition offC blockcols columns)
    (hBS : B ≤ S) (hSR : BlocksAtMost offR B) (hSC : BlocksAtMost offC B)
    (hdense : ∀ rs cs n, rs ≤ B → cs ≤ B → n ≤ es.length → choose rs cs n = .dense → rs * cs < M)
    (hdup : (∀ rs cs n, choose rs cs n ≠ .dense) ∨ Distinct (ents es))
    (hw : 0 < workers) (hne : es ≠ []) (hlen : 2 * (es.length + 2) ≤ M) (hgrid : blockrows * blockcols < M)
    (hrows : rows + 1 < M) (hcols : columns < M) (hbr : blockrows ≤ rows) (hbc : blockcols ≤ columns)
    (hin : InRange (ents es) rows columns)
    (e0 : Ent T) (he0 : e0 ∈ ents es) (i0 lo0 : Nat) (hi0 : InBlockRange offR i0 e0.row) (hlo : offR[i0]? = some lo0) (hpos : 0 < lo0) :
    ∃ A es', cooToCgbr M S workers choose heavy es rows columns offR blockrows offC blockcols = .ok (A, es') ∧
      ¬ (ents es').Perm (ents es) := by
  obtain ⟨A, es', h1, loc, h2, h3⟩ := C53_cgbr_localizes M S B workers rows columns choose heavy es offR blockrows offC blockcols PR PC
    hBS hSR hSC hdense hdup hw hne hlen hgrid hrows hcols hbr hbc hin
  refine ⟨A, es', h1, fun hp => ?_⟩
  have hle : ∀ e ∈ ents es, (loc e).row ≤ e.row := by
    intro e he
    obtain ⟨i, j, lo, hi, -, -, -, -, h⟩ := h3 e he
    rw [h]; exact Nat.sub_le _ _
  have hlt : (loc e0).row < e0.row := by
    obtain ⟨i, j, lo, hi, q1, -, q3, -, h⟩ := h3 e0 he0
    have : i = i0 := C21_unique offR blockrows rows _ PR _ _ q1 hi0
    subst this
    rw [hlo] at q3
    injection q3 with q3
    subst q3
    obtain ⟨l, u, r1, -, r2, -⟩ := hi0
    rw [hlo] at r1
    injection r1 with r1
    subst r1
    rw [h]
    show e0.row - lo0 < e0.row
    omega
  have hsum : ((ents es).map (fun e => (loc e).row)).sum = ((ents es).map (fun e => e.row)).sum := by
    have a := ((h2.symm.trans hp).map (fun e : Ent T => e.row)).sum_eq
    rw [List.map_map] at a
    exact a
  have : ((ents es).map (fun e => (loc e).row)).sum < ((ents es).map (fun e => e.row)).sum :=
    List.sum_lt_sum _ _ hle ⟨e0, he0, hlt⟩
  omega

/-- The extra hypotheses of `C53_cgbr_destroys` are met by the entry (4,3) of the 2×2 partition used above. -/
example : (⟨4, 3, 5⟩ : Ent Int) ∈ ents [(⟨4, 3, 5, 0⟩ : Element Int), ⟨0, 0, 2, 0⟩] ∧ InBlockRange [0, 2, 5] 1 4 ∧
    [0, 2, 5][1]? = some 2 ∧ 0 < 2 := ⟨by decide, ⟨2, 5, rfl, rfl, by decide, by decide⟩, rfl, by decide⟩

/-! ### C19 -/

/-- The non-zeros of the blocks `a, …, b-1`. -/
def blockLoad (w : Nat → Nat) (a b : Nat) : Nat := ((List.range (b - a)).map (fun i => w (a + i))).sum

/-- **C19.** `partition_blockrow` on the blocks `start … stop-1` with `w b` non-zeros each: the boundaries start at
`start`, end at `stop` and never decrease, so the chunks tile the range; every chunk but the last holds at most
`min_nnz` non-zeros besides those of its first block, the last at most those of its first and last block more; and
there are at most `load / (min_nnz + 1) + 1` chunks.  `min_nnz = nnz / (2 * workers)`. -/
theorem C19_partition_blockrow (M workers nnz : Nat) (blockNnz : Nat → C Nat) (w : Nat → Nat) (start stop : Nat)
    (hw : 0 < workers) (hle : start ≤ stop) (hM : stop < M)
    (hb : ∀ b, start ≤ b → b < stop → blockNnz b = .ok (w b)) (hload : blockLoad w start stop < M) :
    ∃ chunks, partitionBlockrow M workers nnz blockNnz start stop = .ok chunks ∧
      2 ≤ chunks.length ∧ chunks.head? = some start ∧ chunks.getLast? = some stop ∧ chunks.Pairwise (· ≤ ·) ∧
      (∀ j a b, j + 2 < chunks.length → chunks[j]? = some a → chunks[j + 1]? = some b →
        blockLoad w a b ≤ nnz / (2 * workers) + w a) ∧
      (∀ a, chunks[chunks.length - 2]? = some a → blockLoad w a stop ≤ nnz / (2 * workers) + w a + w (stop - 1)) ∧
      (chunks.length - 2) * (nnz / (2 * workers) + 1) ≤ blockLoad w start stop := by
  obtain ⟨c, h1, h2⟩ := partitionBlockrow_spec blockNnz w start stop hw hle hM hb hload
  exact ⟨c, h1, h2.size, h2.first, h2.last, h2.mono, h2.light, h2.light_last, h2.count⟩

/-- C19: consecutive boundaries tile the block range — every block is in exactly one chunk. -/
theorem C19_tiles (chunks : List Nat) (start stop : Nat) (hs : chunks.head? = some start) (he : chunks.getLast? = some stop)
    (hm : chunks.Pairwise (· ≤ ·)) (b : Nat) (h1 : start ≤ b) (h2 : b < stop) :
    ∃! j, ∃ lo hi, chunks[j]? = some lo ∧ chunks[j + 1]? = some hi ∧ lo ≤ b ∧ b < hi := by
  have hmono := List.pairwise_iff_getElem.1 hm
  have hex : ∃ j, ∃ lo hi, chunks[j]? = some lo ∧ chunks[j + 1]? = some hi ∧ lo ≤ b ∧ b < hi := by
    clear hmono
    induction chunks generalizing start with
    | nil => simp at hs
    | cons a l ih =>
      simp only [List.head?_cons, Option.some.injEq] at hs
      subst hs
      cases l with
      | nil => simp at he; omega
      | cons c l =>
        by_cases hc : b < c
        · exact ⟨0, a, c, rfl, rfl, h1, hc⟩
        · obtain ⟨j, lo, hi, q1, q2, q3, q4⟩ := ih c (by simp) (by simpa using he) (List.pairwise_cons.1 hm).2 (by omega)
          exact ⟨j + 1, lo, hi, by simpa using q1, by simpa using q2, q3, q4⟩
  obtain ⟨j, lo, hi, q1, q2, q3, q4⟩ := hex
  refine ⟨j, ⟨lo, hi, q1, q2, q3, q4⟩, ?_⟩
  rintro j' ⟨lo', hi', r1, r2, r3, r4⟩
  obtain ⟨l1, e1⟩ := List.getElem?_eq_some_iff.1 q1
  obtain ⟨l2, e2⟩ := List.getElem?_eq_some_iff.1 q2
  obtain ⟨l3, e3⟩ := List.getElem?_eq_some_iff.1 r1
  obtain ⟨l4, e4⟩ := List.getElem?_eq_some_iff.1 r2
  rcases Nat.lt_trichotomy j j' with h | h | h
  · have : chunks[j + 1] ≤ chunks[j'] := by
      rcases Nat.eq_or_lt_of_le (show j + 1 ≤ j' by omega) with h' | h'
      · simp [h']
      · exact hmono _ _ l2 l3 h'
    omega
  · exact h.symm
  · have : chunks[j' + 1] ≤ chunks[j] := by
      rcases Nat.eq_or_lt_of_le (show j' + 1 ≤ j by omega) with h' | h'
      · simp [h']
      · exact hmono _ _ l4 l1 h'
    omega

/-- C19 for the partition a constructed CSBR carries: one boundary list per block-row; together they tile exactly the
blocks of that block-row, `blockrow_ptr[i] … blockrow_ptr[i+1]-1`. -/
theorem C19_csbr_partition [Add T] [Mul T] (M workers rows columns : Nat) (es : List (Element T))
    (offR : List Nat) (blockrows : Nat) (offC : List Nat) (blockcols : Nat)
    (PR : Partition offR blockrows rows) (PC : Partition offC blockcols columns)
    (hw : 0 < workers) (hne : es ≠ []) (hlen : es.length < M) (hgrid : blockrows * blockcols < M)
    (hrows : rows + 1 < M) (hcols : columns < M) (hbr : blockrows ≤ rows) (hbc : blockcols ≤ columns)
    (hin : InRange (ents es) rows columns) :
    ∃ A es', cooToCsbr M workers es rows columns offR blockrows offC blockcols = .ok (A, es') ∧
      A.partition.length = blockrows ∧
      ∀ i, i < blockrows → ∃ c lo hi, A.partition[i]? = some c ∧ A.blockrowPtr.get i = .ok lo ∧ A.blockrowPtr.get (i + 1) = .ok hi ∧
        c.head? = some lo ∧ c.getLast? = some hi ∧ c.Pairwise (· ≤ ·) := by
  have H := prepared_blkIn (M := M) PR PC hne hlen hgrid hrows hcols hbr (by omega) hin
  obtain ⟨P, hP, hl, hc⟩ := csbr_partition (rows := rows) (columns := columns) (offR := offR) (offC := offC) hw H
  have hb := csbrBuild_ok (workers := workers) H hbr hbc (fun i hi => PR.rd_ok i hi) (fun i hi => PC.rd_ok i hi)
    PR.at_last PC.at_last P hP
  refine ⟨{ csbrOf (offF offR) (offF offC) offR offC rows columns blockrows blockcols
    (prepared offR blockrows offC blockcols es) with partition := P }, prepared offR blockrows offC blockcols es, ?_, hl, ?_⟩
  · unfold cooToCsbr
    rw [calculateBlockId_spec PR PC (by omega) (by omega) (by omega) hin, ok_bind]
    simp only
    show (do let A ← csbrBuild M workers (prepared offR blockrows offC blockcols es) rows columns offR blockrows offC blockcols
             Except.ok (A, prepared offR blockrows offC blockcols es)) = _
    rw [hb, ok_bind]
  · intro i hi
    obtain ⟨c, c1, c2⟩ := hc i hi
    refine ⟨c, _, _, c1, ?_, ?_, c2.first, c2.last, c2.mono⟩
    · show Buf.get (Buf.full _ _) i = _
      rw [Buf.get_full (by omega), if_pos (by omega)]; rfl
    · show Buf.get (Buf.full _ _) (i + 1) = _
      rw [Buf.get_full (by omega), if_pos (by omega)]; rfl

/-- Chunks are really cut: five blocks of weights 5,1,1,5,1 with 13 non-zeros and one worker (`min_nnz = 6`). -/
example : partitionBlockrow (2 ^ 32) 1 13 (fun b => .ok ([5, 1, 1, 5, 1].getD b 0)) 0 5 = .ok [0, 2, 5] := by
  rfl

end Gsb
