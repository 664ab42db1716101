import Verif.Props.Schedule
import Verif.Props.CgbrWide
/-
C18 for blocks of any size: every schedule of the product gives the result of the sequential recursion, also where local
indices do not fit the small index type.
-/
namespace Gsb
variable {T : Type}

section
variable [NonUnitalNonAssocSemiring T]

theorem cgbr_safeE {β : Type} {make : MakeBlock β T} {spmv : β → Buf T → Nat → Buf T → Nat → C (Buf T)}
    {nonzeros : β → C Nat} {code : β → Buf T → Nat → Nat → Nat → Prog T} {M rows columns : Nat} {es : List (Element T)}
    {offR : List Nat} {blockrows : Nat} {offC : List Nat} {blockcols : Nat} {loc : Nat → Nat → Nat → Ent T → Ent T}
    {φ : Ent T → Ent T}
    (PR : Partition offR blockrows rows) (PC : Partition offC blockcols columns)
    (hne : es ≠ []) (hlen : 2 * (es.length + 2) ≤ M) (hgrid : blockrows * blockcols < M)
    (hrows : rows + 1 < M) (hcols : columns < M) (hbr : blockrows ≤ rows) (hbc : blockcols ≤ columns)
    (hin : InRange (ents es) rows columns) {res : Results β T}
    (hφ : MovesBy loc φ (offF offR) (offF offC) blockcols (prepared offR blockrows offC blockcols es))
    (hres : ∀ k, k < (runs Element.block (prepared offR blockrows offC blockcols es)).length →
        MakesBlockE make spmv nonzeros
          (blkRows (offF offR) blockcols (prepared offR blockrows offC blockcols es) k)
          (blkCols (offF offC) blockcols (prepared offR blockrows offC blockcols es) k)
          (runLoc (offF offR) (offF offC) blockcols (prepared offR blockrows offC blockcols es) k)
          ((ents (runLoc (offF offR) (offF offC) blockcols (prepared offR blockrows offC blockcols es) k)).map
            (loc (blkRows (offF offR) blockcols (prepared offR blockrows offC blockcols es) k)
              (blkCols (offF offC) blockcols (prepared offR blockrows offC blockcols es) k)
              (runLoc (offF offR) (offF offC) blockcols (prepared offR blockrows offC blockcols es) k).length)) (res k))
    (hcode : ∀ blk, (∃ k, k < (runs Element.block (prepared offR blockrows offC blockcols es)).length ∧ (res k).2.1 = blk) →
      CodeOk (spmv blk) (code blk))
    (nx : Nat) (hnx : columns ≤ nx) (x y : Nat → T) (b : Bool) (P : List (List Nat))
    (hP : b = false → PartShape blockcols blockrows (prepared offR blockrows offC blockcols es) P) (Y n : Nat) :
    safe (fun _ m => m = arr Y 0 (Buf.full rows (spmvSum ((ents es).map φ) x y))) n
      (spmvBlockedP M ((gbrOf res offR offC rows columns blockrows blockcols (prepared offR blockrows offC blockcols es)).toBlockMat spmv nonzeros)
        ((gbrOf res offR offC rows columns blockrows blockcols (prepared offR blockrows offC blockcols es)).code code) b P (Buf.full nx x) Y)
      (arr Y 0 (Buf.full rows y)) := by
  have H := prepared_blkIn (M := M) PR PC hne (by omega) hgrid hrows hcols hbr (by omega) hin
  have hpl := prepared_length (offR := offR) (blockrows := blockrows) (offC := offC) (blockcols := blockcols) (es := es)
  have hperm := ents_prepared_perm (offR := offR) (blockrows := blockrows) (offC := offC) (blockcols := blockcols) (es := es)
  have R := gbr_blockRepE (offR := offR) (offC := offC) (rows := rows) (columns := columns) H hφ (fun i hi => PR.rd_ok i hi)
    (fun i hi => PC.rd_ok i hi) (fun i hi => PR.mono (Nat.le_succ i) hi) hres nx
    (fun i hi => Nat.le_trans (PC.le_total hi) hnx) x
  have hr : offF offR blockrows = rows := PR.at_last
  have key := safe_blocked (M := M) R (code := (gbrOf res offR offC rows columns blockrows blockcols
      (prepared offR blockrows offC blockcols es)).code code) (CodeFor.gbr _ _ _ _ (by
        intro k blk hk
        refine hcode blk ?_
        obtain ⟨hlt, he⟩ := get_inv hk
        have hlt : k < (runs Element.block (prepared offR blockrows offC blockcols es)).length := hlt
        simp only [gbrOf] at he
        rw [List.getElem?_eq_getElem (by simpa using hlt), Option.map_some] at he
        simp at he
        exact ⟨k, hlt, he⟩)) PR.at_zero Y y
    (by show blockrows < M; omega) (by show offF offR blockrows < M; omega) b P (by
      intro hb bi hbi
      obtain ⟨c, c1, c2⟩ := hP hb bi hbi
      have h1 := rowPtrOf_le blockcols (runKeys Element.block (prepared offR blockrows offC blockcols es)) (bi + 1)
      rw [runKeys_length] at h1
      have h2 := runs_length_le Element.block (prepared offR blockrows offC blockcols es)
      have h3 := c2.short
      exact ⟨c, c1, by omega, c2.size, c2.mono, c2.first, c2.last⟩) n
  rw [allEnts_blkEntsM hφ, visit_eq, spmvInOrder_eq_sum, spmvSum_perm (hperm.map _)] at key
  change safe (fun _ m => m = arr Y 0 (Buf.full (offF offR blockrows) _)) n _ (arr Y 0 (Buf.full (offF offR blockrows) _)) at key
  rw [hr] at key
  exact key

/-- **C18** for blocks of any size, `Cgbr`: under every schedule the product is that of the entries with the local column of each
entry of a CSR block taken modulo the number `S` of small indices (C11). -/
theorem C18_cgbr_wide (M S workers rows columns : Nat) (choose : Nat → Nat → Nat → BlockChoice)
    (heavy : Nat → Nat → List Nat → Bool) (es : List (Element T))
    (offR : List Nat) (blockrows : Nat) (offC : List Nat) (blockcols : Nat)
    (PR : Partition offR blockrows rows) (PC : Partition offC blockcols columns)
    (hcoo : ∀ e ∈ ents es, blockKind choose offR offC (ents es) e = .coo →
      e.row - blockStart offR e.row < S ∧ e.col - blockStart offC e.col < S)
    (hdense : ∀ e ∈ ents es, blockKind choose offR offC (ents es) e = .dense →
      (blockEnd offR e.row - blockStart offR e.row) * (blockEnd offC e.col - blockStart offC e.col) < M ∧ Distinct (ents es))
    (hw : 0 < workers) (hne : es ≠ []) (hlen : 2 * (es.length + 2) ≤ M) (hgrid : blockrows * blockcols < M)
    (hrows : rows + 1 < M) (hcols : columns < M) (hbr : blockrows ≤ rows) (hbc : blockcols ≤ columns)
    (hin : InRange (ents es) rows columns) (nx : Nat) (hnx : columns ≤ nx) (x y : Nat → T) :
    ∃ A es', cooToCgbr M S workers choose heavy es rows columns offR blockrows offC blockcols = .ok (A, es') ∧
      EverySchedule (fun Y => A.spmvP M (Buf.full nx x) Y) rows y
        (spmvSum ((ents es).map (cgbrAt S choose offR offC (ents es))) x y) := by
  obtain ⟨res, b, P, es', h1, hres, -, hP, hφ⟩ := cgbr_wide_main M S workers rows columns choose heavy es offR blockrows offC blockcols
    PR PC hcoo hdense hw hne hlen hgrid hrows hcols hbr hbc hin
  rw [← inBlock_cgbr]
  refine ⟨_, _, h1, everySchedule_of_safe (fun Y n => ?_)⟩
  exact cgbr_safeE PR PC hne hlen hgrid hrows hcols hbr hbc hin hφ hres (fun blk _ => CodeOk.matrixBlock M blk) nx hnx x y b P hP Y n

/-- **C18** for blocks of any size, `Cgbr2` with the default factory: also the local rows of COO blocks are taken modulo `S` (C12).
Whatever the uninitialised member `balanced` holds. -/
theorem C18_cgbr2_wide (M S workers rows columns : Nat) (choose : Nat → Nat → Nat → FactoryChoice) (es : List (Element T))
    (offR : List Nat) (blockrows : Nat) (offC : List Nat) (blockcols : Nat)
    (PR : Partition offR blockrows rows) (PC : Partition offC blockcols columns)
    (hdense : ∀ e ∈ ents es, blockKind choose offR offC (ents es) e = .dense →
      (blockEnd offR e.row - blockStart offR e.row) * (blockEnd offC e.col - blockStart offC e.col) < M ∧ Distinct (ents es))
    (hw : 0 < workers) (hne : es ≠ []) (hlen : 2 * (es.length + 2) ≤ M) (hgrid : blockrows * blockcols < M)
    (hrows : rows + 1 < M) (hcols : columns < M) (hbr : blockrows ≤ rows) (hbc : blockcols ≤ columns)
    (hin : InRange (ents es) rows columns) (nx : Nat) (hnx : columns ≤ nx) (balanced : Bool) (x y : Nat → T) :
    ∃ A es', cgbr2Create M workers (factoryDefault M S choose) es rows columns offR blockrows offC blockcols = .ok (A, es') ∧
      EverySchedule (fun Y => A.spmvP M balanced (Buf.full nx x) Y) rows y
        (spmvSum ((ents es).map (cgbr2At S choose offR offC (ents es))) x y) := by
  obtain ⟨res, P, es', h1, hres, hP, hφ⟩ := cgbr2_wide_main M S workers rows columns choose es offR blockrows offC blockcols PR PC hdense hw
    hne hlen hgrid hrows hcols hbr hbc hin
  rw [← inBlock_factory]
  refine ⟨_, _, h1, everySchedule_of_safe (fun Y n => ?_)⟩
  exact cgbr_safeE PR PC hne hlen hgrid hrows hcols hbr hbc hin hφ hres (fun blk ⟨k, hk, e⟩ => by
    subst e; exact CodeOk.factory M S choose _ _ _ _ (hres k hk).ok) nx hnx x y balanced P (fun _ => hP) Y n

end

/-- **C17** for CSWR of any width: under every schedule the rows within a wide row are taken modulo the number `S` of small indices, and
the terms are added in the order of the sorted entries. -/
theorem C17_cswr_any [Add T] [Mul T] {ε : Type} [NZ ε T] (M S rows columns width : Nat) (es : List ε)
    (hw : 0 < width) (hnnz : es.length < M) (hrows : rows + width < M)
    (hin : InRange (ents es) rows columns) (x y : Nat → T) :
    ∃ A es', cooToCswr M S es rows columns width = .ok (A, es') ∧ es'.Perm es ∧
      EverySchedule (fun Y => A.spmvP M (Buf.full columns x) Y) rows y (spmvInOrder
        ((ents es').map (fun e => ⟨width * (e.row / width) + e.row % width % S, e.col, e.val⟩)) x y) := by
  obtain ⟨A, es', h1, hp, -, -, h2⟩ := C07_cswr_any M S rows columns width es hw hnnz hrows hin x y
  have h3 := cooToCswr_spec M S es rows columns width hw hnnz hrows (fun e he => (hin e he).1)
  rw [h1] at h3
  cases h3
  refine ⟨_, _, h1, hp, everySchedule_of_good (fun Y => Good.cswr M _ _ Y ?_ ?_) (fun Y => Sim.cswr M _ _ Y) h2⟩
  · show width * ((rows + width - 1) / width) < M + width
    have := Nat.mul_div_le (rows + width - 1) width
    omega
  · intro k r hr
    obtain ⟨e, -, rfl⟩ : ∃ e, True ∧ r = (NZ.toEnt (T := T) e).row % width % S := by
      have he := (get_inv hr).2
      simp only [cswrOf] at he
      cases hk : (sortTripletsWide width es)[k]? with
      | none => simp [hk] at he
      | some e => simp [hk] at he; exact ⟨e, trivial, he.symm⟩
    exact Nat.lt_of_le_of_lt (Nat.mod_le _ _) (Nat.mod_lt _ hw)

/-- **C17** for CSBR3 with blocks of any size. -/
theorem C17_csbr3_any [Add T] [Mul T] (M S rows columns bs : Nat) (es : List (Element T))
    (hbs : 0 < bs) (hne : es ≠ []) (hlen : es.length + 1 < M)
    (hgrid : ((rows + bs - 1) / bs) * ((columns + bs - 1) / bs) < M)
    (hrows : rows + bs < M) (hcols : columns + bs < M) (hin : InRange (ents es) rows columns)
    (nx : Nat) (hnx : columns ≤ nx) (x y : Nat → T) :
    ∃ A es', cooToCsbr3 M S es rows columns bs = .ok (A, es') ∧ (ents es').Perm (ents es) ∧
      EverySchedule (fun Y => A.spmvP M (Buf.full nx x) Y) rows y (spmvInOrder
        ((ents es').map (fun e => ⟨e.row / bs * bs + e.row % bs % S, e.col / bs * bs + e.col % bs % S, e.val⟩)) x y) := by
  obtain ⟨A, es', h1, hp, h2⟩ := C10_csbr3_truncates M S rows columns bs es hbs hne hlen hgrid hrows hcols hin nx rows hnx
    (Nat.le_refl _) x y
  have h3 := csbr3_main (S := S) hbs hne hlen hgrid hrows hcols hin
  rw [h1] at h3
  cases h3
  have H := prepared3_blkIn (M := M) hbs hne (by omega) hgrid hrows hcols hin
  refine ⟨_, _, h1, hp, everySchedule_of_good (fun Y => Good.csbr3 _ ?_ ?_ _ Y) (fun Y => Sim.csbr3 _ _ Y) h2⟩
  · show (rows + bs - 1) / bs * bs < M
    have := Nat.div_mul_le_self (rows + bs - 1) bs
    omega
  · intro k r hr
    show r < bs
    have he := (get_inv hr).2
    simp only [csbr3Of] at he
    cases hk : (prepared3 bs ((columns + bs - 1) / bs) es)[k]? with
    | none => simp [hk] at he
    | some e =>
      simp [hk] at he
      have := H.inR e (List.mem_of_getElem? hk)
      rw [Nat.add_mul] at this
      have h4 := Nat.mod_le (e.row - e.block / ((columns + bs - 1) / bs) * bs) S
      omega

end Gsb
