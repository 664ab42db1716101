import Verif.Props.Cgbr
import Verif.Props.Coo
import Verif.Proof.CgbrWide
/-
C11 and C12 for blocks larger than the small index type.
-/
namespace Gsb
variable {T : Type}

theorem blockStart_le (off : List Nat) (i : Nat) : blockStart off i ≤ i := by
  unfold blockStart
  cases h : (off.filter (fun o => decide (o ≤ i))).getLast? with
  | none => simp
  | some o =>
    have := List.mem_of_getLast? h
    rw [List.mem_filter] at this
    simpa using this.2

theorem wrapIn_eq {S : Nat} {off : List Nat} {i : Nat} (h : i - blockStart off i < S) : wrapIn S off i = i := by
  have := blockStart_le off i
  unfold wrapIn
  rw [Nat.mod_eq_of_lt h]; omega

/-- Where an entry of a `Cgbr` acts, by the type chosen for its block. -/
def cgbrAt (S : Nat) (choose : Nat → Nat → Nat → BlockChoice) (offR offC : List Nat) (L : List (Ent T)) (e : Ent T) : Ent T :=
  match blockKind choose offR offC L e with
  | .csr => ⟨e.row, wrapIn S offC e.col, e.val⟩
  | _ => e

/-- Where an entry of a `Cgbr2` with the default factory acts, by the type chosen for its block. -/
def cgbr2At (S : Nat) (choose : Nat → Nat → Nat → FactoryChoice) (offR offC : List Nat) (L : List (Ent T)) (e : Ent T) : Ent T :=
  match blockKind choose offR offC L e with
  | .coo => ⟨wrapIn S offR e.row, wrapIn S offC e.col, e.val⟩
  | .csr => ⟨e.row, wrapIn S offC e.col, e.val⟩
  | .csrPar => ⟨e.row, wrapIn S offC e.col, e.val⟩
  | .dense => e

theorem inBlock_cgbr (S : Nat) (choose : Nat → Nat → Nat → BlockChoice) (offR offC : List Nat) (L : List (Ent T)) :
    inBlock (cgbrMoves S choose) offR offC L = cgbrAt S choose offR offC L := by
  funext e
  have h1 := blockStart_le offR e.row
  have h2 := blockStart_le offC e.col
  unfold inBlock cgbrMoves cgbrAt blockKind wrapIn
  simp only
  split <;> (rename_i h; simp only [h, Nat.add_sub_cancel' h1]) <;> rw [Nat.add_sub_cancel' h2]

theorem inBlock_factory (S : Nat) (choose : Nat → Nat → Nat → FactoryChoice) (offR offC : List Nat) (L : List (Ent T)) :
    inBlock (factoryMoves S choose) offR offC L = cgbr2At S choose offR offC L := by
  funext e
  have h1 := blockStart_le offR e.row
  have h2 := blockStart_le offC e.col
  unfold inBlock factoryMoves cgbr2At blockKind wrapIn
  simp only
  split <;> (rename_i h; simp only [h, Nat.add_sub_cancel' h1, Nat.add_sub_cancel' h2])

section
variable [NonUnitalNonAssocSemiring T]

/-- **C11** for blocks of any size.  If every entry of a block stored as COO has its place in the block within the small index type,
construction succeeds, and both kernels multiply like the entries with the local column of each entry of a CSR block taken modulo the
number `S` of small indices.  (Dense blocks need their size to fit the index type and no coordinate twice.) -/
theorem C11_cgbr_wide (M S workers rows columns : Nat) (choose : Nat → Nat → Nat → BlockChoice)
    (heavy : Nat → Nat → List Nat → Bool) (es : List (Element T))
    (offR : List Nat) (blockrows : Nat) (offC : List Nat) (blockcols : Nat)
    (PR : Partition offR blockrows rows) (PC : Partition offC blockcols columns)
    (hcoo : ∀ e ∈ ents es, blockKind choose offR offC (ents es) e = .coo →
      e.row - blockStart offR e.row < S ∧ e.col - blockStart offC e.col < S)
    (hdense : ∀ e ∈ ents es, blockKind choose offR offC (ents es) e = .dense →
      (blockEnd offR e.row - blockStart offR e.row) * (blockEnd offC e.col - blockStart offC e.col) < M ∧ Distinct (ents es))
    (hw : 0 < workers) (hne : es ≠ []) (hlen : 2 * (es.length + 2) ≤ M) (hgrid : blockrows * blockcols < M)
    (hrows : rows + 1 < M) (hcols : columns < M) (hbr : blockrows ≤ rows) (hbc : blockcols ≤ columns)
    (hin : InRange (ents es) rows columns) :
    ∃ A es', cooToCgbr M S workers choose heavy es rows columns offR blockrows offC blockcols = .ok (A, es') ∧
      ∀ nx ny, columns ≤ nx → rows ≤ ny → ∀ x y : Nat → T,
        A.spmv M (Buf.full nx x) (Buf.full ny y) =
          .ok (Buf.full ny (spmvSum ((ents es).map (cgbrAt S choose offR offC (ents es))) x y)) ∧
        A.spmvSerial M (Buf.full nx x) (Buf.full ny y) =
          .ok (Buf.full ny (spmvSum ((ents es).map (cgbrAt S choose offR offC (ents es))) x y)) := by
  rw [← inBlock_cgbr]
  exact cgbr_wide M S workers rows columns choose heavy es offR blockrows offC blockcols PR PC hcoo hdense hw hne hlen hgrid hrows
    hcols hbr hbc hin

/-- **C11.** If an entry of a block stored as COO does not fit the small index type, the constructor's assertion stops the program. -/
theorem C11_cgbr_rejects (M S workers rows columns : Nat) (hS : S < M) (choose : Nat → Nat → Nat → BlockChoice)
    (heavy : Nat → Nat → List Nat → Bool) (es : List (Element T))
    (offR : List Nat) (blockrows : Nat) (offC : List Nat) (blockcols : Nat)
    (PR : Partition offR blockrows rows) (PC : Partition offC blockcols columns)
    (hbad : ∃ e ∈ ents es, blockKind choose offR offC (ents es) e = .coo ∧
      ¬ (e.row - blockStart offR e.row < S ∧ e.col - blockStart offC e.col < S))
    (hdense : ∀ e ∈ ents es, blockKind choose offR offC (ents es) e = .dense →
      (blockEnd offR e.row - blockStart offR e.row) * (blockEnd offC e.col - blockStart offC e.col) < M ∧ Distinct (ents es))
    (hlen : 2 * (es.length + 2) ≤ M) (hgrid : blockrows * blockcols < M)
    (hrows : rows + 1 < M) (hcols : columns < M) (hbr : blockrows ≤ rows) (hbc : blockcols ≤ columns)
    (hin : InRange (ents es) rows columns) :
    cooToCgbr M S workers choose heavy es rows columns offR blockrows offC blockcols = .error .assertion := by
  have hne : es ≠ [] := by
    rintro rfl
    obtain ⟨e, he, -⟩ := hbad
    simp [ents] at he
  have H := prepared_blkIn (M := M) PR PC hne (by omega) hgrid hrows hcols hbr (by omega) hin
  have hperm := ents_prepared_perm (offR := offR) (blockrows := blockrows) (offC := offC) (blockcols := blockcols) (es := es)
  obtain ⟨K, hK, hKb, hKmin⟩ : ∃ K, ∃ hK : K < (runs Element.block (prepared offR blockrows offC blockcols es)).length,
      ¬ wideOk M S choose (blkRows (offF offR) blockcols (prepared offR blockrows offC blockcols es) K)
        (blkCols (offF offC) blockcols (prepared offR blockrows offC blockcols es) K)
        (ents (runLoc (offF offR) (offF offC) blockcols (prepared offR blockrows offC blockcols es) K)) ∧
      ∀ k, k < K → wideOk M S choose (blkRows (offF offR) blockcols (prepared offR blockrows offC blockcols es) k)
        (blkCols (offF offC) blockcols (prepared offR blockrows offC blockcols es) k)
        (ents (runLoc (offF offR) (offF offC) blockcols (prepared offR blockrows offC blockcols es) k)) := by
    classical
    have hex : ∃ K, K < (runs Element.block (prepared offR blockrows offC blockcols es)).length ∧
        ¬ wideOk M S choose (blkRows (offF offR) blockcols (prepared offR blockrows offC blockcols es) K)
          (blkCols (offF offC) blockcols (prepared offR blockrows offC blockcols es) K)
          (ents (runLoc (offF offR) (offF offC) blockcols (prepared offR blockrows offC blockcols es) K)) := by
      obtain ⟨e, he, hk, hb⟩ := hbad
      obtain ⟨a, ha, rfl⟩ := List.mem_map.1 (hperm.mem_iff.2 he)
      rw [← (runsOK Element.block (prepared offR blockrows offC blockcols es)).flat] at ha
      obtain ⟨g, hg, hag⟩ := List.mem_flatten.1 ha
      obtain ⟨K, hK, rfl⟩ := List.mem_iff_getElem.1 hg
      refine ⟨K, hK, ?_⟩
      obtain ⟨h1, h2, h3, h4, h5, h6, h7, h8, h9, h10⟩ := run_prepared PR PC H hin hK hag
      have hl : (ents (runLoc (offF offR) (offF offC) blockcols (prepared offR blockrows offC blockcols es) K)).length =
          blockFill offR offC (ents es) (NZ.toEnt a) := by
        rw [← h5, ents, List.length_map, runLoc_eq hK, List.length_map]
      unfold wideOk
      unfold blockKind at hk
      rw [hl, h3, h4]
      have hk' : choose (blockEnd offR a.row - blockStart offR a.row) (blockEnd offC a.col - blockStart offC a.col)
        (blockFill offR offC (ents es) (NZ.toEnt a)) = .coo := hk
      rw [hk']
      intro hall
      refine hb ?_
      have := hall (NZ.toEnt (locElem (offF offR (a.block / blockcols)) (offF offC (a.block % blockcols)) a)) (by
        rw [runLoc_eq hK]
        simp only [ents, List.map_map]
        exact List.mem_map.2 ⟨a, hag, rfl⟩)
      simp only [NZ.toEnt, locElem, h1, h2] at this
      exact this
    refine ⟨Nat.find hex, (Nat.find_spec hex).1, (Nat.find_spec hex).2, fun k hk => ?_⟩
    have := Nat.find_min hex hk
    have hlt := (Nat.find_spec hex).1
    by_contra hc
    exact this ⟨by omega, hc⟩
  -- what is wrong with block `K` is that it is a COO block with a large index
  have hKfail : cooToMatrixBlock M S choose (blkRows (offF offR) blockcols (prepared offR blockrows offC blockcols es) K)
      (blkCols (offF offC) blockcols (prepared offR blockrows offC blockcols es) K)
      (runLoc (offF offR) (offF offC) blockcols (prepared offR blockrows offC blockcols es) K) = .error .assertion := by
    obtain ⟨a, ha⟩ := List.exists_mem_of_ne_nil _ (run_mem Element.block _ K hK).2.1
    obtain ⟨h1, h2, h3, h4, h5, h6, h7, h8, h9, h10⟩ := run_prepared PR PC H hin hK ha
    have hl' : (runLoc (offF offR) (offF offC) blockcols (prepared offR blockrows offC blockcols es) K).length =
        blockFill offR offC (ents es) (NZ.toEnt a) := by
      rw [← h5, runLoc_eq hK, List.length_map]
    have hl : (ents (runLoc (offF offR) (offF offC) blockcols (prepared offR blockrows offC blockcols es) K)).length =
        blockFill offR offC (ents es) (NZ.toEnt a) := by rw [ents, List.length_map, hl']
    unfold wideOk at hKb
    rw [hl, h3, h4] at hKb
    unfold cooToMatrixBlock
    rw [hl', h3, h4]
    cases hch : choose (blockEnd offR a.row - blockStart offR a.row) (blockEnd offC a.col - blockStart offC a.col)
        (blockFill offR offC (ents es) (NZ.toEnt a)) with
    | coo =>
      rw [hch] at hKb
      simp only at hKb ⊢
      push Not at hKb
      obtain ⟨e, he, hb⟩ := hKb
      rw [(C04_blockcoo_rejects (T := T) M S hS (runLoc (offF offR) (offF offC) blockcols (prepared offR blockrows offC blockcols es) K)
        ⟨e, he, fun h => absurd h.2 (Nat.not_lt.2 (hb h.1))⟩).1, error_bind]
    | csr => rw [hch] at hKb; exact absurd trivial hKb
    | dense =>
      rw [hch] at hKb
      exfalso
      refine hKb ?_
      have := hdense (NZ.toEnt a) h10 hch
      exact ⟨this.1, runLoc_distinct H (distinct_perm hperm.symm this.2) hK⟩
  obtain ⟨res, hres⟩ : ∃ res : Results (MatrixBlock T) T, ∀ k, k < (runs Element.block (prepared offR blockrows offC blockcols es)).length →
      ((k < K → cooToMatrixBlock M S choose (blkRows (offF offR) blockcols (prepared offR blockrows offC blockcols es) k)
        (blkCols (offF offC) blockcols (prepared offR blockrows offC blockcols es) k)
        (runLoc (offF offR) (offF offC) blockcols (prepared offR blockrows offC blockcols es) k) = .ok (res k)) ∧
        (res k).2.2.length = runLen (prepared offR blockrows offC blockcols es) k ∧ (res k).1 < 6) := by
    refine choose_results (P := fun k r => (k < K → cooToMatrixBlock M S choose _ _ _ = .ok r) ∧ r.2.2.length = _ ∧ r.1 < 6)
      (runs_length_pos _ H.ne) (fun k hk => ?_)
    by_cases hkK : k < K
    · obtain ⟨h1, h2, h3, h4, h5, h6⟩ := runLoc_ok H hk
      obtain ⟨r, hr⟩ := makes_cgbrE M S choose false _ _ _ h1 h2 h3 h4 h5 h6 (hKmin k hkK)
      exact ⟨r, fun _ => hr.ok, by rw [hr.length, runLoc_length hk], hr.type⟩
    · exact ⟨(0, .coo ⟨Buf.uninit 0, Buf.uninit 0, Buf.uninit 0, 0⟩,
        runLoc (offF offR) (offF offC) blockcols (prepared offR blockrows offC blockcols es) k), fun h => absurd h hkK,
        runLoc_length hk, by simp⟩
  have hb := gbrBuild_fail (rows := rows) (columns := columns) (res := res) (make := cooToMatrixBlock M S choose) hK H
    (fun i hi => PR.rd_ok i hi) (fun i hi => PC.rd_ok i hi) (fun k hk => (hres k (by omega)).1 hk) hKfail
    (fun k hk => (hres k hk).2.1) (fun k hk => (hres k hk).2.2)
  unfold cooToCgbr
  rw [calculateBlockId_spec PR PC (by omega) (by omega) (by omega) hin, ok_bind]
  simp only
  have hc := countBlocks_spec M _ H.ne H.len H.sortedB
  unfold prepared at hc hb
  rw [hc, ok_bind, checkPartition_ok hbr hbc (fun i hi => PR.rd_ok i hi) (fun i hi => PC.rd_ok i hi) PR.at_last PC.at_last,
    ok_bind, hb, error_bind]

/-- **C11** with the library's own choice of block types (in exact arithmetic, small indices no larger than values), blocks of any
size: either the place of every entry in its block fits the small index type, then construction succeeds and the product is right, or
the constructor's assertion stops the program. -/
theorem C11_cgbr_default (M S sT sI sS workers rows columns : Nat) (hS : S < M) (hs : sS ≤ sT) (hI : 0 < sI)
    (heavy : Nat → Nat → List Nat → Bool) (es : List (Element T))
    (offR : List Nat) (blockrows : Nat) (offC : List Nat) (blockcols : Nat)
    (PR : Partition offR blockrows rows) (PC : Partition offC blockcols columns)
    (hw : 0 < workers) (hne : es ≠ []) (hlen : 2 * (es.length + 2) ≤ M) (hgrid : blockrows * blockcols < M)
    (hrows : rows + 1 < M) (hcols : columns < M) (hbr : blockrows ≤ rows) (hbc : blockcols ≤ columns)
    (hin : InRange (ents es) rows columns) :
    ((∀ e ∈ ents es, e.row - blockStart offR e.row < S ∧ e.col - blockStart offC e.col < S) →
      ∃ A es', cooToCgbr M S workers (chooseCgbr sT sI sS) heavy es rows columns offR blockrows offC blockcols = .ok (A, es') ∧
        ∀ nx ny, columns ≤ nx → rows ≤ ny → ∀ x y : Nat → T,
          A.spmv M (Buf.full nx x) (Buf.full ny y) = .ok (Buf.full ny (spmvSum (ents es) x y)) ∧
          A.spmvSerial M (Buf.full nx x) (Buf.full ny y) = .ok (Buf.full ny (spmvSum (ents es) x y))) ∧
    (¬ (∀ e ∈ ents es, e.row - blockStart offR e.row < S ∧ e.col - blockStart offC e.col < S) →
      cooToCgbr M S workers (chooseCgbr sT sI sS) heavy es rows columns offR blockrows offC blockcols = .error .assertion) := by
  have hk : ∀ e ∈ ents es, blockKind (chooseCgbr sT sI sS) offR offC (ents es) e = .coo := by
    intro e he
    have h1 := (hin e he).1
    have h2 := PR.bidx_lo h1
    have h3 := PR.bidx_hi h1
    exact C51_cgbr_always_coo sT sI sS _ _ _ hs (by rw [PR.start_bidx h1, PR.end_bidx h1]; omega) hI
  have hd : ∀ e ∈ ents es, blockKind (chooseCgbr sT sI sS) offR offC (ents es) e = .dense →
      (blockEnd offR e.row - blockStart offR e.row) * (blockEnd offC e.col - blockStart offC e.col) < M ∧ Distinct (ents es) := by
    intro e he h
    rw [hk e he] at h
    cases h
  constructor
  · intro hp
    have h := C11_cgbr_wide M S workers rows columns (chooseCgbr sT sI sS) heavy es offR blockrows offC blockcols PR PC
      (fun e he _ => hp e he) hd hw hne hlen hgrid hrows hcols hbr hbc hin
    have e : (ents es).map (cgbrAt S (chooseCgbr sT sI sS) offR offC (ents es)) = ents es := by
      conv => rhs; rw [← List.map_id (ents es)]
      refine List.map_congr_left (fun e he => ?_)
      unfold cgbrAt
      rw [hk e he]; rfl
    rw [e] at h
    exact h
  · intro hp
    push Not at hp
    obtain ⟨e, he, hb⟩ := hp
    exact C11_cgbr_rejects M S workers rows columns hS (chooseCgbr sT sI sS) heavy es offR blockrows offC blockcols PR PC
      ⟨e, he, hk e he, fun h => absurd h.2 (Nat.not_lt.2 (hb h.1))⟩ hd hlen hgrid hrows hcols hbr hbc hin

/-- **C12** for blocks of any size.  With the default factory construction succeeds, and `spmv` multiplies like the entries with the
local row and column of each entry of a COO block, and the local column of each entry of a CSR block, taken modulo the number `S` of
small indices: nothing is checked.  (Dense blocks need their size to fit the index type and no coordinate twice.) -/
theorem C12_cgbr2_wide (M S workers rows columns : Nat) (choose : Nat → Nat → Nat → FactoryChoice) (es : List (Element T))
    (offR : List Nat) (blockrows : Nat) (offC : List Nat) (blockcols : Nat)
    (PR : Partition offR blockrows rows) (PC : Partition offC blockcols columns)
    (hdense : ∀ e ∈ ents es, blockKind choose offR offC (ents es) e = .dense →
      (blockEnd offR e.row - blockStart offR e.row) * (blockEnd offC e.col - blockStart offC e.col) < M ∧ Distinct (ents es))
    (hw : 0 < workers) (hne : es ≠ []) (hlen : 2 * (es.length + 2) ≤ M) (hgrid : blockrows * blockcols < M)
    (hrows : rows + 1 < M) (hcols : columns < M) (hbr : blockrows ≤ rows) (hbc : blockcols ≤ columns)
    (hin : InRange (ents es) rows columns) :
    ∃ A es', cgbr2Create M workers (factoryDefault M S choose) es rows columns offR blockrows offC blockcols = .ok (A, es') ∧
      ∀ (balanced : Bool) (nx ny : Nat), columns ≤ nx → rows ≤ ny → ∀ x y : Nat → T,
        A.spmv M balanced (Buf.full nx x) (Buf.full ny y) =
          .ok (Buf.full ny (spmvSum ((ents es).map (cgbr2At S choose offR offC (ents es))) x y)) := by
  rw [← inBlock_factory]
  exact cgbr2_wide M S workers rows columns choose es offR blockrows offC blockcols PR PC hdense hw hne hlen hgrid hrows hcols hbr hbc hin

/-- So the product is right as soon as every entry has its place in its block within the small index type, whatever the size of the
blocks. -/
theorem C12_cgbr2_places (M S workers rows columns : Nat) (choose : Nat → Nat → Nat → FactoryChoice) (es : List (Element T))
    (offR : List Nat) (blockrows : Nat) (offC : List Nat) (blockcols : Nat)
    (PR : Partition offR blockrows rows) (PC : Partition offC blockcols columns)
    (hplace : ∀ e ∈ ents es, e.row - blockStart offR e.row < S ∧ e.col - blockStart offC e.col < S)
    (hdense : ∀ e ∈ ents es, blockKind choose offR offC (ents es) e = .dense →
      (blockEnd offR e.row - blockStart offR e.row) * (blockEnd offC e.col - blockStart offC e.col) < M ∧ Distinct (ents es))
    (hw : 0 < workers) (hne : es ≠ []) (hlen : 2 * (es.length + 2) ≤ M) (hgrid : blockrows * blockcols < M)
    (hrows : rows + 1 < M) (hcols : columns < M) (hbr : blockrows ≤ rows) (hbc : blockcols ≤ columns)
    (hin : InRange (ents es) rows columns) :
    ∃ A es', cgbr2Create M workers (factoryDefault M S choose) es rows columns offR blockrows offC blockcols = .ok (A, es') ∧
      ∀ (balanced : Bool) (nx ny : Nat), columns ≤ nx → rows ≤ ny → ∀ x y : Nat → T,
        A.spmv M balanced (Buf.full nx x) (Buf.full ny y) = .ok (Buf.full ny (spmvSum (ents es) x y)) := by
  have h := C12_cgbr2_wide M S workers rows columns choose es offR blockrows offC blockcols PR PC hdense hw hne hlen hgrid hrows hcols
    hbr hbc hin
  have e : (ents es).map (cgbr2At S choose offR offC (ents es)) = ents es := by
    conv => rhs; rw [← List.map_id (ents es)]
    refine List.map_congr_left (fun e he => ?_)
    have hp := hplace e he
    unfold cgbr2At
    split <;> simp only [wrapIn_eq hp.1, wrapIn_eq hp.2, id]
  rw [e] at h
  exact h

end
end Gsb
