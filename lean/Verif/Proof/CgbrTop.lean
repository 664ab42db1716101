import Verif.Proof.Cgbr
/-
`Coo_to_Cgbr` and `Cgbr2::create` as a whole.
-/
namespace Gsb
variable {T : Type}

/-- Chunk boundaries for every block-row. -/
def PartShape (bc blockrows : Nat) (es : List (Element T)) (P : List (List Nat)) : Prop :=
  ∀ i, i < blockrows → ∃ c, P[i]? = some c ∧
    ChunksShape (rowPtrOf bc (runKeys Element.block es) i) (rowPtrOf bc (runKeys Element.block es) (i + 1)) c

/-- All blocks of the matrix with elements `es` were built and multiply correctly. -/
def AllBlocks {β : Type} [AddMonoid T] [Mul T] (make : MakeBlock β T) (spmv : β → Buf T → Nat → Buf T → Nat → C (Buf T))
    (nonzeros : β → C Nat) (fR fC : Nat → Nat) (bc : Nat) (es : List (Element T)) (res : Results β T) : Prop :=
  ∀ k, k < (runs Element.block es).length →
    MakesBlock make spmv nonzeros (blkRows fR bc es k) (blkCols fC bc es k) (runLoc fR fC bc es k) (res k)

section
variable [NonUnitalNonAssocSemiring T]

/-- Every block of the partition is one that its chosen format can hold. -/
theorem cgbr_allOk (M S B rows columns : Nat) (choose : Nat → Nat → Nat → BlockChoice) (es : List (Element T))
    (offR : List Nat) (blockrows : Nat) (offC : List Nat) (blockcols : Nat)
    (PR : Partition offR blockrows rows) (PC : Partition offC blockcols columns)
    (hBS : B ≤ S) (hSR : BlocksAtMost offR B) (hSC : BlocksAtMost offC B)
    (hdense : ∀ rs cs n, rs ≤ B → cs ≤ B → n ≤ es.length → choose rs cs n = .dense → rs * cs < M)
    (hdup : (∀ rs cs n, choose rs cs n ≠ .dense) ∨ Distinct (ents es))
    (H : BlkIn M (offF offR) (offF offC) blockrows blockcols (prepared offR blockrows offC blockcols es)) :
    ∀ k, k < (runs Element.block (prepared offR blockrows offC blockcols es)).length →
      cgbrOk M S choose (blkRows (offF offR) blockcols (prepared offR blockrows offC blockcols es) k)
        (blkCols (offF offC) blockcols (prepared offR blockrows offC blockcols es) k)
        (ents (runLoc (offF offR) (offF offC) blockcols (prepared offR blockrows offC blockcols es) k)) := by
  have hpl := prepared_length (offR := offR) (blockrows := blockrows) (offC := offC) (blockcols := blockcols) (es := es)
  have hperm := ents_prepared_perm (offR := offR) (blockrows := blockrows) (offC := offC) (blockcols := blockcols) (es := es)
  intro k hk
  obtain ⟨⟨i, lo, hi, -, i1, i2, i3⟩, ⟨j, lo', hi', -, j1, j2, j3⟩⟩ := blk_sizes H PR PC hk
  have s1 : blkRows (offF offR) blockcols (prepared offR blockrows offC blockcols es) k ≤ B := by
    rw [i3]; exact hSR i lo hi i1 i2
  have s2 : blkCols (offF offC) blockcols (prepared offR blockrows offC blockcols es) k ≤ B := by
    rw [j3]; exact hSC j lo' hi' j1 j2
  have hl : (ents (runLoc (offF offR) (offF offC) blockcols (prepared offR blockrows offC blockcols es) k)).length ≤ es.length := by
    have := (run_mem Element.block _ k hk).2.2
    rw [ents, List.length_map, runLoc_length hk, runLen_eq _ hk]
    omega
  unfold cgbrOk
  split
  · exact ⟨by omega, by omega⟩
  · omega
  · next h =>
    refine ⟨hdense _ _ _ s1 s2 hl h, ?_⟩
    rcases hdup with h' | h'
    · exact absurd h (h' _ _ _)
    · exact runLoc_distinct H (distinct_perm hperm.symm h') hk

theorem cgbr_mainB (M S B workers rows columns : Nat) (choose : Nat → Nat → Nat → BlockChoice)
    (heavy : Nat → Nat → List Nat → Bool) (es : List (Element T))
    (offR : List Nat) (blockrows : Nat) (offC : List Nat) (blockcols : Nat)
    (PR : Partition offR blockrows rows) (PC : Partition offC blockcols columns)
    (hBS : B ≤ S) (hSR : BlocksAtMost offR B) (hSC : BlocksAtMost offC B)
    (hdense : ∀ rs cs n, rs ≤ B → cs ≤ B → n ≤ es.length → choose rs cs n = .dense → rs * cs < M)
    (hdup : (∀ rs cs n, choose rs cs n ≠ .dense) ∨ Distinct (ents es))
    (hw : 0 < workers) (hne : es ≠ []) (hlen : 2 * (es.length + 2) ≤ M) (hgrid : blockrows * blockcols < M)
    (hrows : rows + 1 < M) (hcols : columns < M) (hbr : blockrows ≤ rows) (hbc : blockcols ≤ columns)
    (hin : InRange (ents es) rows columns) :
    ∃ (res : Results (MatrixBlock T) T) (b : Bool) (P : List (List Nat)),
      cooToCgbr M S workers choose heavy es rows columns offR blockrows offC blockcols =
        .ok (⟨gbrOf res offR offC rows columns blockrows blockcols (prepared offR blockrows offC blockcols es), b, P⟩,
          ((List.range (runs Element.block (prepared offR blockrows offC blockcols es)).length).map (fun j => (res j).2.2)).flatten) ∧
      AllBlocks (cooToMatrixBlock M S choose) (MatrixBlock.spmv M) (MatrixBlock.nonzeros M) (offF offR) (offF offC) blockcols
        (prepared offR blockrows offC blockcols es) res ∧
      AllBlocks (cooToMatrixBlock M S choose) (MatrixBlock.spmvSerial M) (MatrixBlock.nonzeros M) (offF offR) (offF offC) blockcols
        (prepared offR blockrows offC blockcols es) res ∧
      (b = false → PartShape blockcols blockrows (prepared offR blockrows offC blockcols es) P) := by
  have H := prepared_blkIn (M := M) PR PC hne (by omega) hgrid hrows hcols hbr (by omega) hin
  have hpl := prepared_length (offR := offR) (blockrows := blockrows) (offC := offC) (blockcols := blockcols) (es := es)
  have hperm := ents_prepared_perm (offR := offR) (blockrows := blockrows) (offC := offC) (blockcols := blockcols) (es := es)
  have hok := cgbr_allOk M S B rows columns choose es offR blockrows offC blockcols PR PC hBS hSR hSC hdense hdup H
  obtain ⟨res, hres⟩ := gbr_results (goodMake_cgbr M S choose false) H hok
  obtain ⟨res', hres'⟩ := gbr_results (goodMake_cgbr M S choose true) H hok
  have hsame : ∀ k, k < (runs Element.block (prepared offR blockrows offC blockcols es)).length → res' k = res k := by
    intro k hk
    have h1 := (hres k hk).ok
    rw [(hres' k hk).ok] at h1
    injection h1
  have hresS : ∀ k, k < (runs Element.block (prepared offR blockrows offC blockcols es)).length →
      MakesBlock (cooToMatrixBlock M S choose) (MatrixBlock.spmvSerial M) (MatrixBlock.nonzeros M)
        (blkRows (offF offR) blockcols (prepared offR blockrows offC blockcols es) k)
        (blkCols (offF offC) blockcols (prepared offR blockrows offC blockcols es) k)
        (runLoc (offF offR) (offF offC) blockcols (prepared offR blockrows offC blockcols es) k) (res k) := by
    intro k hk
    have := hres' k hk
    rw [hsame k hk] at this
    exact this
  have hb := gbrBuild_spec (rows := rows) (columns := columns) (res := res) (make := cooToMatrixBlock M S choose) H
    (fun i hi => PR.rd_ok i hi) (fun i hi => PC.rd_ok i hi) (fun k hk => (hres k hk).ok)
    (fun k hk => by rw [(hres k hk).length, runLoc_length hk]) (fun k hk => (hres k hk).type)
  obtain ⟨b, hbal⟩ := isBalanced_ok (M := M) (offR := offR) (offC := offC) (rows := rows) (columns := columns)
    (blockrows := blockrows) (bc := blockcols) heavy (fun k hk => (hres k hk).nnz)
  obtain ⟨P, hP1, -, hP2⟩ := gbr_partition (M := M) (offR := offR) (offC := offC) (rows := rows) (columns := columns)
    (blockrows := blockrows) hw hres
  refine ⟨res, b, if b = true then [] else P, ?_, hres, hresS, ?_⟩
  · unfold cooToCgbr
    rw [calculateBlockId_spec PR PC (by omega) (by omega) (by omega) hin, ok_bind]
    simp only
    have hc := countBlocks_spec M _ H.ne H.len H.sortedB
    unfold prepared at hc hb hbal hP1
    rw [hc, ok_bind, checkPartition_ok hbr hbc (fun i hi => PR.rd_ok i hi) (fun i hi => PC.rd_ok i hi) PR.at_last PC.at_last,
      ok_bind, hb, ok_bind, hbal, ok_bind]
    cases b
    · simp only [Bool.false_eq_true, if_false]
      have hP1' : partitionInit M workers (Cgbr.toBlockMat M (gbrOf res offR offC rows columns blockrows blockcols
            (sortElementsBlocks (es.map (withKey (blockKey offR blockrows offC blockcols)))))) = .ok P := hP1
      rw [hP1', ok_bind]; rfl
    · simp only [if_true, ok_bind]; rfl
  · intro hb0; subst hb0; exact hP2


theorem cgbr_main (M S workers rows columns : Nat) (choose : Nat → Nat → Nat → BlockChoice)
    (heavy : Nat → Nat → List Nat → Bool) (es : List (Element T))
    (offR : List Nat) (blockrows : Nat) (offC : List Nat) (blockcols : Nat)
    (PR : Partition offR blockrows rows) (PC : Partition offC blockcols columns)
    (hSR : BlocksAtMost offR S) (hSC : BlocksAtMost offC S)
    (hdense : ∀ rs cs n, rs ≤ S → cs ≤ S → n ≤ es.length → choose rs cs n = .dense → rs * cs < M)
    (hdup : (∀ rs cs n, choose rs cs n ≠ .dense) ∨ Distinct (ents es))
    (hw : 0 < workers) (hne : es ≠ []) (hlen : 2 * (es.length + 2) ≤ M) (hgrid : blockrows * blockcols < M)
    (hrows : rows + 1 < M) (hcols : columns < M) (hbr : blockrows ≤ rows) (hbc : blockcols ≤ columns)
    (hin : InRange (ents es) rows columns) :
    ∃ (res : Results (MatrixBlock T) T) (b : Bool) (P : List (List Nat)),
      cooToCgbr M S workers choose heavy es rows columns offR blockrows offC blockcols =
        .ok (⟨gbrOf res offR offC rows columns blockrows blockcols (prepared offR blockrows offC blockcols es), b, P⟩,
          ((List.range (runs Element.block (prepared offR blockrows offC blockcols es)).length).map (fun j => (res j).2.2)).flatten) ∧
      AllBlocks (cooToMatrixBlock M S choose) (MatrixBlock.spmv M) (MatrixBlock.nonzeros M) (offF offR) (offF offC) blockcols
        (prepared offR blockrows offC blockcols es) res ∧
      AllBlocks (cooToMatrixBlock M S choose) (MatrixBlock.spmvSerial M) (MatrixBlock.nonzeros M) (offF offR) (offF offC) blockcols
        (prepared offR blockrows offC blockcols es) res ∧
      (b = false → PartShape blockcols blockrows (prepared offR blockrows offC blockcols es) P) :=
  cgbr_mainB M S S workers rows columns choose heavy es offR blockrows offC blockcols PR PC (Nat.le_refl S) hSR hSC hdense hdup hw hne hlen
    hgrid hrows hcols hbr hbc hin

theorem cgbr_both {M rows columns : Nat} {es : List (Element T)} {S : Nat} {choose : Nat → Nat → Nat → BlockChoice}
    {offR : List Nat} {blockrows : Nat} {offC : List Nat} {blockcols : Nat}
    (PR : Partition offR blockrows rows) (PC : Partition offC blockcols columns)
    (hne : es ≠ []) (hlen : 2 * (es.length + 2) ≤ M) (hgrid : blockrows * blockcols < M)
    (hrows : rows + 1 < M) (hcols : columns < M) (hbr : blockrows ≤ rows) (hbc : blockcols ≤ columns)
    (hin : InRange (ents es) rows columns)
    {res : Results (MatrixBlock T) T} {b : Bool} {P : List (List Nat)}
    (hres : AllBlocks (cooToMatrixBlock M S choose) (MatrixBlock.spmv M) (MatrixBlock.nonzeros M) (offF offR) (offF offC) blockcols
        (prepared offR blockrows offC blockcols es) res)
    (hresS : AllBlocks (cooToMatrixBlock M S choose) (MatrixBlock.spmvSerial M) (MatrixBlock.nonzeros M) (offF offR) (offF offC) blockcols
        (prepared offR blockrows offC blockcols es) res)
    (hP : b = false → PartShape blockcols blockrows (prepared offR blockrows offC blockcols es) P)
    (nx ny : Nat) (hnx : columns ≤ nx) (hny : rows ≤ ny) (x y : Nat → T) :
    Cgbr.spmv M ⟨gbrOf res offR offC rows columns blockrows blockcols (prepared offR blockrows offC blockcols es), b, P⟩
        (Buf.full nx x) (Buf.full ny y) = .ok (Buf.full ny (spmvSum (ents es) x y)) ∧
    Cgbr.spmvSerial M ⟨gbrOf res offR offC rows columns blockrows blockcols (prepared offR blockrows offC blockcols es), b, P⟩
        (Buf.full nx x) (Buf.full ny y) = .ok (Buf.full ny (spmvSum (ents es) x y)) := by
  have H := prepared_blkIn (M := M) PR PC hne (by omega) hgrid hrows hcols hbr (by omega) hin
  have hpl := prepared_length (offR := offR) (blockrows := blockrows) (offC := offC) (blockcols := blockcols) (es := es)
  have hperm := ents_prepared_perm (offR := offR) (blockrows := blockrows) (offC := offC) (blockcols := blockcols) (es := es)
  have hmono : ∀ i, i < blockrows → offF offR i ≤ offF offR (i + 1) := fun i hi => PR.mono (Nat.le_succ i) hi
  have hxx : ∀ i, i ≤ blockcols → offF offC i ≤ nx := fun i hi => Nat.le_trans (PC.le_total hi) hnx
  constructor
  · have := gbr_spmv (offR := offR) (offC := offC) (columns := columns) H (fun i hi => PR.rd_ok i hi)
      (fun i hi => PC.rd_ok i hi) hmono PR.at_last (by omega) (by rw [hpl]; exact hlen) hres nx ny hxx hny x y b P hP
    refine this.trans ?_
    rw [spmvSum_perm hperm]
  · have R := gbr_blockRep (offR := offR) (offC := offC) (rows := rows) (columns := columns) H (fun i hi => PR.rd_ok i hi)
      (fun i hi => PC.rd_ok i hi) hmono hresS nx hxx x
    refine (spmvBalanced_spec R ny y (by show offF offR blockrows ≤ ny; rw [PR.at_last]; exact hny)).trans ?_
    rw [allEnts_blkEnts H, visit_eq, spmvInOrder_eq_sum, spmvSum_perm hperm]

end

section
variable [AddCommMonoid T] [Mul T]

theorem cgbr2_main (M S workers rows columns : Nat) (factory : MakeBlock (BlockObj T) T) (D : Prop) (es : List (Element T))
    (offR : List Nat) (blockrows : Nat) (offC : List Nat) (blockcols : Nat)
    (PR : Partition offR blockrows rows) (PC : Partition offC blockcols columns)
    (hSR : BlocksAtMost offR S) (hSC : BlocksAtMost offC S)
    (ok : Nat → Nat → List (Ent T) → Prop)
    (hok : ∀ rs cs L, rs ≤ S → cs ≤ S → L.length ≤ es.length → (D → Distinct L) → ok rs cs L)
    (G : GoodMake M factory BlockObj.spmv (fun b => .ok b.nnz) ok)
    (hdup : D → Distinct (ents es))
    (hw : 0 < workers) (hne : es ≠ []) (hlen : 2 * (es.length + 2) ≤ M) (hgrid : blockrows * blockcols < M)
    (hrows : rows + 1 < M) (hcols : columns < M) (hbr : blockrows ≤ rows) (hbc : blockcols ≤ columns)
    (hin : InRange (ents es) rows columns) :
    ∃ (res : Results (BlockObj T) T) (P : List (List Nat)),
      cgbr2Create M workers factory es rows columns offR blockrows offC blockcols =
        .ok (⟨gbrOf res offR offC rows columns blockrows blockcols (prepared offR blockrows offC blockcols es), P⟩,
          ((List.range (runs Element.block (prepared offR blockrows offC blockcols es)).length).map (fun j => (res j).2.2)).flatten) ∧
      AllBlocks factory BlockObj.spmv (fun b => .ok b.nnz) (offF offR) (offF offC) blockcols
        (prepared offR blockrows offC blockcols es) res ∧
      PartShape blockcols blockrows (prepared offR blockrows offC blockcols es) P ∧
      ∀ (balanced : Bool) (nx ny : Nat), columns ≤ nx → rows ≤ ny → ∀ x y : Nat → T,
        Cgbr2.spmv M balanced ⟨gbrOf res offR offC rows columns blockrows blockcols (prepared offR blockrows offC blockcols es), P⟩
          (Buf.full nx x) (Buf.full ny y) = .ok (Buf.full ny (spmvSum (ents es) x y)) := by
  have H := prepared_blkIn (M := M) PR PC hne (by omega) hgrid hrows hcols hbr (by omega) hin
  have hpl := prepared_length (offR := offR) (blockrows := blockrows) (offC := offC) (blockcols := blockcols) (es := es)
  have hperm := ents_prepared_perm (offR := offR) (blockrows := blockrows) (offC := offC) (blockcols := blockcols) (es := es)
  obtain ⟨res, hres⟩ := gbr_results G H (by
    intro k hk
    obtain ⟨⟨i, lo, hi, -, i1, i2, i3⟩, ⟨j, lo', hi', -, j1, j2, j3⟩⟩ := blk_sizes H PR PC hk
    refine hok _ _ _ (by rw [i3]; exact hSR i lo hi i1 i2) (by rw [j3]; exact hSC j lo' hi' j1 j2) ?_
      (fun h => runLoc_distinct H (distinct_perm hperm.symm (hdup h)) hk)
    have := (run_mem Element.block _ k hk).2.2
    rw [ents, List.length_map, runLoc_length hk, runLen_eq _ hk]
    omega)
  have hb := gbrBuild_spec (rows := rows) (columns := columns) (res := res) (make := factory) H
    (fun i hi => PR.rd_ok i hi) (fun i hi => PC.rd_ok i hi) (fun k hk => (hres k hk).ok)
    (fun k hk => by rw [(hres k hk).length, runLoc_length hk]) (fun k hk => (hres k hk).type)
  obtain ⟨P, hP1, -, hP2⟩ := gbr_partition (M := M) (offR := offR) (offC := offC) (rows := rows) (columns := columns)
    (blockrows := blockrows) hw hres
  refine ⟨res, P, ?_, hres, hP2, ?_⟩
  · unfold cgbr2Create
    rw [checkPartition_ok hbr hbc (fun i hi => PR.rd_ok i hi) (fun i hi => PC.rd_ok i hi) PR.at_last PC.at_last, ok_bind,
      calculateBlockId_spec PR PC (by omega) (by omega) (by omega) hin, ok_bind]
    simp only
    unfold prepared at hb hP1
    rw [hb, ok_bind]
    have hP1' : partitionInit M workers (Cgbr2.toBlockMat (gbrOf res offR offC rows columns blockrows blockcols
          (sortElementsBlocks (es.map (withKey (blockKey offR blockrows offC blockcols)))))) = .ok P := hP1
    rw [hP1', ok_bind]; rfl
  · intro bal nx ny hnx hny x y
    have hmono : ∀ i, i < blockrows → offF offR i ≤ offF offR (i + 1) := fun i hi => PR.mono (Nat.le_succ i) hi
    have hxx : ∀ i, i ≤ blockcols → offF offC i ≤ nx := fun i hi => Nat.le_trans (PC.le_total hi) hnx
    have := gbr_spmv (offR := offR) (offC := offC) (columns := columns) H (fun i hi => PR.rd_ok i hi)
      (fun i hi => PC.rd_ok i hi) hmono PR.at_last (by omega) (by rw [hpl]; exact hlen) hres nx ny hxx hny x y bal P
      (fun _ => hP2)
    refine this.trans ?_
    rw [spmvSum_perm hperm]

end

/-! ### Counts -/

section
variable {β : Type}

theorem sum_range_cntType (res : Results β T) (n : Nat) (ht : ∀ k, k < n → (res k).1 < 6) :
    ((List.range 6).map (cntType res n)).sum = n := by
  induction n with
  | zero => simp [cntType, List.range_succ]
  | succ n ih =>
    have h := ih (fun k hk => ht k (by omega))
    have h6 := ht n (by omega)
    simp only [List.range_succ, List.range_zero, List.nil_append, List.map_append, List.map_cons, List.map_nil,
      List.sum_append, List.sum_cons, List.sum_nil] at h ⊢
    simp only [cntType_succ]
    generalize (res n).1 = t at *
    have : t = 0 ∨ t = 1 ∨ t = 2 ∨ t = 3 ∨ t = 4 ∨ t = 5 := by omega
    rcases this with h' | h' | h' | h' | h' | h' <;> subst h' <;> simp <;> omega

theorem sum_range_nnzType (res : Results β T) (len : Nat → Nat) (n : Nat) (ht : ∀ k, k < n → (res k).1 < 6) :
    ((List.range 6).map (nnzType res len n)).sum = ((List.range n).map len).sum := by
  induction n with
  | zero => simp [nnzType, List.range_succ]
  | succ n ih =>
    have h := ih (fun k hk => ht k (by omega))
    have h6 := ht n (by omega)
    rw [List.range_succ (n := n), List.map_append, List.sum_append, ← h]
    simp only [List.range_succ, List.range_zero, List.nil_append, List.map_append, List.map_cons, List.map_nil,
      List.sum_append, List.sum_cons, List.sum_nil]
    simp only [nnzType_succ]
    generalize (res n).1 = t at *
    have : t = 0 ∨ t = 1 ∨ t = 2 ∨ t = 3 ∨ t = 4 ∨ t = 5 := by omega
    rcases this with h' | h' | h' | h' | h' | h' <;> subst h' <;> simp <;> omega

end
end Gsb
