import Verif.Par.Formats
import Verif.Props.Csr
import Verif.Props.Other
import Verif.Props.Csbr
import Verif.Props.Cgbr
/-
C16, C17, C18: the multi-threaded kernels under every schedule.
-/
namespace Gsb
variable {T : Type}

/-- **The conclusion of the schedule theorems.**  `p Y` is the kernel called with `y` in (the first `rows` cells of)
array `Y`.  Whatever else `F` is in memory — the rest of `Y` included —, every run on every schedule is free of races
and of undefined behaviour, ends, and leaves `y'` in `y` and everything else as it was. -/
def EverySchedule (p : Nat → Prog T) (rows : Nat) (y y' : Nat → T) : Prop :=
  ∀ (Y : Nat) (F : Mem T), Disj (arr Y 0 (Buf.full rows y)) F → FiniteMem F →
    AllSchedules (p Y) ((arr Y 0 (Buf.full rows y)).union F) ((arr Y 0 (Buf.full rows y')).union F)

theorem finiteMem_union {Y : Nat} {y : Buf T} {F : Mem T} (hf : FiniteMem F) : FiniteMem ((arr Y 0 y).union F) := by
  obtain ⟨B, h⟩ := hf
  refine ⟨max B (Y + 1), fun b i hb => ?_⟩
  rw [Mem.union_none]
  refine ⟨?_, h b i (by omega)⟩
  rw [arr_len]
  rintro ⟨h1, -⟩
  simp only at h1
  omega

theorem everySchedule_of_safe {p : Nat → Prog T} {rows : Nat} {y y' : Nat → T}
    (h : ∀ Y n, safe (fun _ m => m = arr Y 0 (Buf.full rows y')) n (p Y) (arr Y 0 (Buf.full rows y))) : EverySchedule p rows y y' :=
  fun Y _ hd hf => allSchedules_of_safe hd (finiteMem_union hf) (h Y)

theorem everySchedule_of_good {p : Nat → Prog T} {f : Buf T → C (Buf T)} {rows : Nat} {y y' : Nat → T} (hg : ∀ Y, Good (p Y))
    (hs : ∀ Y, Sim Y 0 (p Y) f) (h : f (Buf.full rows y) = .ok (Buf.full rows y')) : EverySchedule p rows y y' :=
  everySchedule_of_safe (fun Y n => Good.safe (hg Y) (hs Y) h n)

/-! ### C16: one row, one iteration -/

section
variable [Add T] [Mul T]

/-- **C16** for `spmv_csr`: *any* matrix object on which the serial loop is defined, any `x`, any arithmetic. -/
theorem C16_csr_kernel (A : Csr T) (x : Buf T) (rows : Nat) (y y' : Nat → T)
    (h : A.spmv x 0 (Buf.full rows y) 0 = .ok (Buf.full rows y')) : EverySchedule (fun Y => A.spmvP x 0 Y 0) rows y y' :=
  everySchedule_of_good (fun _ => Good.csr _ _ _ _ _ _ _ _ _) (fun Y => Sim.csr A.rowPtr A.colInd A.val 0 A.rows x 0 Y 0 0) h

/-- **C16** for `spmv_csr2`. -/
theorem C16_csr2_kernel (A : Csr2 T) (x : Buf T) (rows : Nat) (y y' : Nat → T)
    (h : A.spmv x (Buf.full rows y) = .ok (Buf.full rows y')) : EverySchedule (fun Y => A.spmvP x Y) rows y y' :=
  everySchedule_of_good (fun _ => Good.csr2 _ _ _) (fun Y => Sim.csr2 A x Y) h

/-- **C16** for `spmv_dense`. -/
theorem C16_dense_kernel (M : Nat) (A : Dense T) (x : Buf T) (rows : Nat) (y y' : Nat → T)
    (h : A.spmv M x 0 (Buf.full rows y) 0 = .ok (Buf.full rows y')) : EverySchedule (fun Y => A.spmvP M x 0 Y 0) rows y y' :=
  everySchedule_of_good (fun _ => Good.dense _ _ _ _ _ _) (fun Y => Sim.dense M A x 0 Y 0 0) h

/-- **C16** for the compressed-row kernel; it relies on the list of non-empty rows having no repetition. -/
theorem C16_crcsr_kernel (A : CrCsr T) (x : Buf T) (rows : Nat) (y y' : Nat → T)
    (hd : ∀ i j r, i < j → j < A.nnzRowsNum → A.nnzRows.get i = .ok r → A.nnzRows.get j ≠ .ok r)
    (h : A.spmv x (Buf.full rows y) = .ok (Buf.full rows y')) : EverySchedule (fun Y => A.spmvP x Y) rows y y' :=
  everySchedule_of_good (fun _ => Good.crcsr _ _ _ hd) (fun Y => Sim.crcsr A x Y) h

variable {ε : Type} [NZ ε T]

/-- **C16**, from the entries: a matrix converted to CSR, multiplied under any schedule. -/
theorem C16_csr (M rows columns : Nat) (es : List ε)
    (hnnz : es.length < M) (hrows : rows + 1 < M) (hcols : columns < M)
    (hin : InRange (ents es) rows columns) (nx : Nat) (hnx : columns ≤ nx) (x y : Nat → T) :
    ∃ A es', cooToCsr M es rows columns = .ok (A, es') ∧
      EverySchedule (fun Y => A.spmvP (Buf.full nx x) 0 Y 0) rows y (spmvExact (ents es) x y) := by
  obtain ⟨A, es', h1, h2, -⟩ := C01_csr_spmv M rows columns es hnnz hrows hcols hin nx rows hnx (Nat.le_refl _) x y
  exact ⟨A, es', h1, C16_csr_kernel A _ rows y _ h2⟩

theorem C16_csr2 (M rows columns : Nat) (es : List ε)
    (hnnz : es.length < M) (hrows : rows + 1 < M) (hin : InRange (ents es) rows columns)
    (nx : Nat) (hnx : columns ≤ nx) (x y : Nat → T) :
    ∃ A es', cooToCsr2 M es rows columns = .ok (A, es') ∧
      EverySchedule (fun Y => A.spmvP (Buf.full nx x) Y) rows y (spmvExact (ents es) x y) := by
  obtain ⟨A, es', h1, h2, -⟩ := C02_csr2_spmv M rows columns es hnnz hrows hin nx rows hnx (Nat.le_refl _) x y
  exact ⟨A, es', h1, C16_csr2_kernel A _ rows y _ h2⟩

/-- Compressed rows: the constructor of the library is never defined (C06), so this is about the array with `row_ptr`
zeroed and the rows counted after sorting. -/
theorem C16_crcsr (M rows columns : Nat) (es : List ε) (hne : es ≠ [])
    (hM : es.length + 1 < M) (hin : InRange (ents es) rows columns) (x y : Nat → T) :
    ∃ n A es', countNnzRows M (sortTriplets es) = .ok n ∧
      crcsrBuild M (Buf.filled (n + 1) 0) es n = .ok (A, es') ∧
      EverySchedule (fun Y => A.spmvP (Buf.full columns x) Y) rows y (spmvExact (ents es) x y) := by
  have hlenE := length_sortTriplets es true
  have hne' : sortTriplets es ≠ [] := by
    intro h; rw [h] at hlenE; simp at hlenE; exact hne (List.length_eq_zero_iff.1 hlenE.symm)
  have hp := ents_perm (sortTriplets_perm es true)
  refine ⟨_, _, _, countNnzRows_spec M _ hne' (by omega), crcsrBuild_spec M es hne hM, C16_crcsr_kernel _ _ rows y _ ?_ ?_⟩
  · intro i j r hij hj h1 h2
    have hs := runKeys_sorted rowOf (sortTriplets es) (sortTriplets_sorted es)
    have hj' : j < (runKeys rowOf (sortTriplets es)).length := hj
    have hlt := List.pairwise_iff_getElem.1 hs i j (by omega) hj' hij
    have get : ∀ k (hk : k < (runKeys rowOf (sortTriplets es)).length), (crcsrOf (sortTriplets es)).nnzRows.get k =
        .ok ((runKeys rowOf (sortTriplets es))[k]) := fun k hk =>
      Buf.get_ok (by exact hk) (by simp only [crcsrOf]; exact List.getElem?_eq_getElem hk)
    rw [get i (by omega)] at h1
    rw [get j hj'] at h2
    cases h1
    have := Except.ok.inj h2
    omega
  · rw [crcsr_spmv_spec _ (sortTriplets_sorted es) (fun e he => (hin e (hp.mem_iff.1 he)).2)
      (fun e he => (hin e (hp.mem_iff.1 he)).1), sortTriplets_exact]

end

theorem C16_dense [NonUnitalNonAssocSemiring T] {ε : Type} [NZ ε T] (M rows columns : Nat) (es : List ε)
    (hM : rows * columns < M) (hin : InRange (ents es) rows columns) (hd : Distinct (ents es)) (x y : Nat → T) :
    ∃ A : Dense T, mkDense M es rows columns = .ok A ∧
      EverySchedule (fun Y => A.spmvP M (Buf.full columns x) 0 Y 0) rows y (spmvSum (ents es) x y) := by
  obtain ⟨A, h1, h2⟩ := C05_dense_distinct M rows columns es hM hin hd x y
  exact ⟨A, h1, C16_dense_kernel M A _ rows y _ h2⟩

/-! ### C17: one block-row, one iteration -/

section
variable [Add T] [Mul T]

/-- **C17** for CSWR: rows of width `width ≤ S` at a time. -/
theorem C17_cswr {ε : Type} [NZ ε T] (M S rows columns width : Nat) (es : List ε)
    (hw : 0 < width) (hwS : width ≤ S) (hnnz : es.length < M) (hrows : rows + width < M)
    (hin : InRange (ents es) rows columns) (x y : Nat → T) :
    ∃ A es', cooToCswr M S es rows columns width = .ok (A, es') ∧
      EverySchedule (fun Y => A.spmvP M (Buf.full columns x) Y) rows y (spmvExact (ents es) x y) := by
  obtain ⟨A, es', h1, -, -, h2⟩ := C07_cswr_spmv M S rows columns width es hw hwS hnnz hrows hin x y
  have h3 := cooToCswr_spec M S es rows columns width hw hnnz hrows (fun e he => (hin e he).1)
  rw [h1] at h3
  cases h3
  refine ⟨_, _, h1, everySchedule_of_good (fun Y => Good.cswr M _ _ Y ?_ ?_) (fun Y => Sim.cswr M _ _ Y) h2⟩
  · show width * ((rows + width - 1) / width) < M + width
    have := Nat.mul_div_le (rows + width - 1) width
    omega
  · intro k r hr
    obtain ⟨e, -, rfl⟩ : ∃ e, True ∧ r = (NZ.toEnt (T := T) e).row % width % S := by
      have he := (get_inv hr).2
      simp only [cswrOf] at he
      cases hk : (sortTripletsWide width es)[k]? with
      | none => simp [hk] at he
      | some e => simp [hk] at he; exact ⟨e, trivial, he.symm⟩
    exact Nat.lt_of_le_of_lt (Nat.mod_le _ _) (Nat.mod_lt _ hw)

/-- **C17** for CSBR: block-rows in parallel, and inside each block its rows in parallel. -/
theorem C17_csbr [Zero T] (M workers rows columns : Nat) (es : List (Element T))
    (offR : List Nat) (blockrows : Nat) (offC : List Nat) (blockcols : Nat)
    (PR : Partition offR blockrows rows) (PC : Partition offC blockcols columns)
    (hw : 0 < workers) (hne : es ≠ []) (hlen : es.length < M) (hgrid : blockrows * blockcols < M)
    (hrows : rows + 1 < M) (hcols : columns < M) (hbr : blockrows ≤ rows) (hbc : blockcols ≤ columns)
    (hin : InRange (ents es) rows columns) (nx : Nat) (hnx : columns ≤ nx) (x y : Nat → T) :
    ∃ A es', cooToCsbr M workers es rows columns offR blockrows offC blockcols = .ok (A, es') ∧
      EverySchedule (fun Y => A.spmvP M (Buf.full nx x) Y) rows y (spmvExact (ents es) x y) := by
  obtain ⟨P, hP⟩ := csbr_main (workers := workers) hw PR PC hne hlen hgrid hrows hcols hbr hbc hin
  refine ⟨_, _, hP, everySchedule_of_safe (fun Y n => ?_)⟩
  have H := prepared_blkIn (M := M) PR PC hne hlen hgrid hrows hcols hbr (by omega) hin
  have R := csbr_blockRep (rows := rows) (columns := columns) H (fun i hi => PR.rd_ok i hi) (fun i hi => PC.rd_ok i hi)
    (fun i hi => PR.mono (Nat.le_succ i) hi) nx (fun e he => by
      have := (hin _ (mem_prepared he).2).2; simp only at this; omega) x P
  have := safe_balanced R (CodeFor.csbr _) PR.at_zero Y y n
  rw [allEnts_blkEnts H, visit_eq, prepared_exact] at this
  have hr : offF offR blockrows = rows := PR.at_last
  change safe (fun _ m => m = arr Y 0 (Buf.full (offF offR blockrows) _)) n _ (arr Y 0 (Buf.full (offF offR blockrows) _)) at this
  rw [hr] at this
  exact this

/-- **C17** for CSBR2. -/
theorem C17_csbr2 (M rows columns : Nat) (es : List (Element T))
    (offR : List Nat) (blockrows : Nat) (offC : List Nat) (blockcols : Nat)
    (PR : Partition offR blockrows rows) (PC : Partition offC blockcols columns)
    (hne : es ≠ []) (hlen : es.length < M) (hgrid : blockrows * blockcols < M)
    (hrows : rows + 1 < M) (hcols : columns < M) (hbr : blockrows ≤ rows) (hbc : blockcols ≤ columns)
    (hin : InRange (ents es) rows columns) (nx : Nat) (hnx : columns ≤ nx) (x y : Nat → T) :
    ∃ A es', cooToCsbr2 M es rows columns offR blockrows offC blockcols = .ok (A, es') ∧
      EverySchedule (fun Y => A.spmvP M (Buf.full nx x) Y) rows y (spmvExact (ents es) x y) := by
  obtain ⟨A, es', h1, h2⟩ := C09_csbr2_spmv M rows columns es offR blockrows offC blockcols PR PC hne hlen hgrid hrows hcols
    hbr hbc hin nx rows hnx (Nat.le_refl _) x y
  have h3 := csbr2_main PR PC hne hlen hgrid hrows hcols hbr hbc hin
  rw [h1] at h3
  cases h3
  exact ⟨_, _, h1, everySchedule_of_good (fun Y => Good.csbr2 _ (offF offR) (fun i hi => PR.rd_ok i hi)
    (fun i j hij hj => PR.mono hij hj) (fun i hi => by have := PR.le_total hi; omega)
    (by show blockrows < M; omega) _ Y) (fun Y => Sim.csbr2 _ _ Y) h2⟩

/-- **C17** for CSBR3's `spmv_balanced`. -/
theorem C17_csbr3 (M S rows columns bs : Nat) (es : List (Element T))
    (hbs : 0 < bs) (hS : bs ≤ S) (hne : es ≠ []) (hlen : es.length + 1 < M)
    (hgrid : ((rows + bs - 1) / bs) * ((columns + bs - 1) / bs) < M)
    (hrows : rows + bs < M) (hcols : columns + bs < M) (hin : InRange (ents es) rows columns)
    (nx : Nat) (hnx : columns ≤ nx) (x y : Nat → T) :
    ∃ A es', cooToCsbr3 M S es rows columns bs = .ok (A, es') ∧
      EverySchedule (fun Y => A.spmvP M (Buf.full nx x) Y) rows y (spmvExact (ents es) x y) := by
  obtain ⟨A, es', h1, h2⟩ := C10_csbr3_spmv M S rows columns bs es hbs hS hne hlen hgrid hrows hcols hin nx rows hnx
    (Nat.le_refl _) x y
  have h3 := csbr3_main (S := S) hbs hne hlen hgrid hrows hcols hin
  rw [h1] at h3
  cases h3
  have H := prepared3_blkIn (M := M) hbs hne (by omega) hgrid hrows hcols hin
  refine ⟨_, _, h1, everySchedule_of_good (fun Y => Good.csbr3 _ ?_ ?_ _ Y) (fun Y => Sim.csbr3 _ _ Y) h2⟩
  · show (rows + bs - 1) / bs * bs < M
    have := Nat.div_mul_le_self (rows + bs - 1) bs
    omega
  · intro k r hr
    show r < bs
    have he := (get_inv hr).2
    simp only [csbr3Of] at he
    cases hk : (prepared3 bs ((columns + bs - 1) / bs) es)[k]? with
    | none => simp [hk] at he
    | some e =>
      simp [hk] at he
      have := H.inR e (List.mem_of_getElem? hk)
      rw [Nat.add_mul] at this
      have h4 := Nat.mod_le (e.row - e.block / ((columns + bs - 1) / bs) * bs) S
      omega

end

/-! ### C17, C18: CGBR -/

/-- `Cgbr::spmv` on every schedule, the block-rows in one piece (C17, `balanced`) or in chunks (C18). -/
theorem C18_cgbr [NonUnitalNonAssocSemiring T] (M S B workers rows columns : Nat) (choose : Nat → Nat → Nat → BlockChoice)
    (heavy : Nat → Nat → List Nat → Bool) (es : List (Element T))
    (offR : List Nat) (blockrows : Nat) (offC : List Nat) (blockcols : Nat)
    (PR : Partition offR blockrows rows) (PC : Partition offC blockcols columns)
    (hBS : B ≤ S) (hSR : BlocksAtMost offR B) (hSC : BlocksAtMost offC B)
    (hdense : ∀ rs cs n, rs ≤ B → cs ≤ B → n ≤ es.length → choose rs cs n = .dense → rs * cs < M)
    (hdup : (∀ rs cs n, choose rs cs n ≠ .dense) ∨ Distinct (ents es))
    (hw : 0 < workers) (hne : es ≠ []) (hlen : 2 * (es.length + 2) ≤ M) (hgrid : blockrows * blockcols < M)
    (hrows : rows + 1 < M) (hcols : columns < M) (hbr : blockrows ≤ rows) (hbc : blockcols ≤ columns)
    (hin : InRange (ents es) rows columns) (nx : Nat) (hnx : columns ≤ nx) (x y : Nat → T) :
    ∃ A es', cooToCgbr M S workers choose heavy es rows columns offR blockrows offC blockcols = .ok (A, es') ∧
      EverySchedule (fun Y => A.spmvP M (Buf.full nx x) Y) rows y (spmvSum (ents es) x y) := by
  obtain ⟨res, b, P, h1, h2, -, h4⟩ := cgbr_mainB M S B workers rows columns choose heavy es offR blockrows offC blockcols PR PC
    hBS hSR hSC hdense hdup hw hne hlen hgrid hrows hcols hbr hbc hin
  refine ⟨_, _, h1, everySchedule_of_safe (fun Y n => ?_)⟩
  exact cgbr_safe PR PC hne hlen hgrid hrows hcols hbr hbc hin h2 (fun blk _ => CodeOk.matrixBlock M blk) nx hnx x y b P h4 Y n

/-- `Cgbr2::spmv` with the default factory on every schedule, for either value of its uninitialised member `balanced`. -/
theorem C18_cgbr2 [NonUnitalNonAssocSemiring T] (M S B workers rows columns : Nat) (choose : Nat → Nat → Nat → FactoryChoice)
    (D : Prop) (es : List (Element T))
    (offR : List Nat) (blockrows : Nat) (offC : List Nat) (blockcols : Nat)
    (PR : Partition offR blockrows rows) (PC : Partition offC blockcols columns)
    (hBS : B ≤ S) (hSR : BlocksAtMost offR B) (hSC : BlocksAtMost offC B)
    (hdense : ∀ rs cs n, rs ≤ B → cs ≤ B → n < M → choose rs cs n = .dense → rs * cs < M ∧ D)
    (hdup : D → Distinct (ents es))
    (hw : 0 < workers) (hne : es ≠ []) (hlen : 2 * (es.length + 2) ≤ M) (hgrid : blockrows * blockcols < M)
    (hrows : rows + 1 < M) (hcols : columns < M) (hbr : blockrows ≤ rows) (hbc : blockcols ≤ columns)
    (hin : InRange (ents es) rows columns) (nx : Nat) (hnx : columns ≤ nx) (balanced : Bool) (x y : Nat → T) :
    ∃ A es', cgbr2Create M workers (factoryDefault M S choose) es rows columns offR blockrows offC blockcols = .ok (A, es') ∧
      EverySchedule (fun Y => A.spmvP M balanced (Buf.full nx x) Y) rows y (spmvSum (ents es) x y) := by
  have hf := C12_default_factory_right (T := T) M S B hBS choose D hdense
  obtain ⟨res, P, h1, h2, h3, -⟩ := cgbr2_main M B workers rows columns _ D es offR blockrows offC blockcols PR PC hSR hSC
    (fun rs cs L => rs ≤ B ∧ cs ≤ B ∧ (D → Distinct L)) (fun rs cs L a b _ d => ⟨a, b, d⟩)
    (by
      intro rs cs g a1 a2 a3 a4 a5 a6 a7
      obtain ⟨t, b, g', b1, b2, b3, b4⟩ := hf rs cs g a1 a2 a3 a4 a7.1 a7.2.1 a5 a6 a7.2.2
      exact ⟨(t, b, g'), b1, b2, b3, b4, ⟨_, rfl⟩⟩)
    hdup hw hne hlen hgrid hrows hcols hbr hbc hin
  refine ⟨_, _, h1, everySchedule_of_safe (fun Y n => ?_)⟩
  exact cgbr_safe PR PC hne hlen hgrid hrows hcols hbr hbc hin h2 (fun blk ⟨k, hk, e⟩ => by
    subst e; exact CodeOk.factory M S choose _ _ _ _ (h2 k hk).ok) nx hnx x y balanced P (fun _ => h3) Y n


/-- **C18.** One `spmv_chunk` call — the whole tree of tasks with their temporaries — on a window of `bsize` cells at
`o` of array `Y`: for *any* CGBR object, chunk vector, recursion depth and arithmetic, if the recursion run
sequentially turns the window `y` into `y'`, then so does every schedule, without a race, an access to anything
else, or a leaked temporary. -/
theorem C18_chunk [Add T] [Mul T] [Zero T] (M : Nat) (A : Gbr (MatrixBlock T)) (chunks : List Nat) (x : Buf T)
    (bsize depth first last o : Nat) (y y' : Buf T) (hy : y.len = bsize)
    (h : spmvChunk M (Cgbr.toBlockMat M A) chunks x bsize depth first last y 0 = .ok y')
    (Y : Nat) (F : Mem T) (hd : Disj (arr Y o y) F) (hf : FiniteMem ((arr Y o y).union F)) :
    AllSchedules (spmvChunkP M (Cgbr.toBlockMat M A) (A.code (MatrixBlock.spmvP M)) chunks x bsize depth first last Y o)
      ((arr Y o y).union F) ((arr Y o y').union F) :=
  allSchedules_of_safe hd hf (safe_chunk (CodeFor.gbr _ _ _ _ (fun _ blk _ => CodeOk.matrixBlock M blk)) chunks x bsize depth first
    last Y o y y' hy h).2

/-- **C18** for the loop over the block-rows, law-free: if the sequential recursion of each block-row `bi`, on its own
part of `y` (from `off bi` to `off (bi+1)`), succeeds and `y'` has its result in that part, then every schedule of all
block-rows and all their tasks turns `y` into `y'`. -/
theorem C18_rows [Add T] [Mul T] [Zero T] (M : Nat) (A : Gbr (MatrixBlock T)) (P : List (List Nat)) (x : Buf T)
    (off : Nat → Nat) (h0 : off 0 = 0) (hmono : ∀ i, i < A.blockrows → off i ≤ off (i + 1))
    (hoff : ∀ i, i ≤ A.blockrows → rd A.offR i = .ok (off i)) (hM : A.blockrows < M) (hoM : ∀ i, i ≤ A.blockrows → off i < M)
    (y y' : Nat → T)
    (h : ∀ bi, bi < A.blockrows → ∃ chunks, P[bi]? = some chunks ∧
      spmvChunk M (Cgbr.toBlockMat M A) chunks x (off (bi + 1) - off bi) chunks.length 0 (subM M (chunks.length % M) 1)
        (Buf.full (off (bi + 1) - off bi) (fun i => y (off bi + i))) 0 =
        .ok (Buf.full (off (bi + 1) - off bi) (fun i => y' (off bi + i)))) :
    EverySchedule (fun Y => (Cgbr.mk A false P).spmvP M x Y) (off A.blockrows) y y' := by
  refine everySchedule_of_safe (fun Y n => ?_)
  have hw : ∀ z, window Y (off 0) (off A.blockrows) z = arr Y 0 (Buf.full (off A.blockrows) z) :=
    windows_all (A := Cgbr.toBlockMat M A) h0 Y
  rw [← hw, ← hw]
  refine safe_parFor_windows (Nat.zero_le _) (fun i _ hi => hmono i hi) (fun bi _ hbi n => ?_) n
  obtain ⟨c, hc, hs⟩ := h bi hbi
  have hbi : bi < A.blockrows := hbi
  have hrd : rd P bi = .ok c := by simp [rd, hc]
  refine safe_read hrd (safe_read (hoff bi (by omega)) (safe_read (by rw [addM_eq (by omega)]; exact hoff (bi + 1) (by omega)) ?_))
  rw [subM_eq (hoM _ (by omega)) (hmono bi hbi)]
  have hcf : CodeFor (Cgbr.toBlockMat M A) (A.code (MatrixBlock.spmvP M)) :=
    CodeFor.gbr _ _ _ _ (fun _ blk _ => CodeOk.matrixBlock M blk)
  exact (safe_chunk hcf c x (off (bi + 1) - off bi) _ _ _ Y (off bi) _ _ rfl hs).2 n

/-! ### Concrete cases -/

/-- A 3×3 matrix with an empty row, an unsorted row and a repeated coordinate meets the hypotheses of C16. -/
example (x y : Nat → Int) : ∃ A es', cooToCsr (2 ^ 32) [(⟨2, 1, 5⟩ : Ent Int), ⟨0, 2, 2⟩, ⟨0, 0, 7⟩, ⟨2, 1, 1⟩] 3 3 = .ok (A, es') ∧
    EverySchedule (fun Y => A.spmvP (Buf.full 3 x) 0 Y 0) 3 y
      (spmvExact (ents [(⟨2, 1, 5⟩ : Ent Int), ⟨0, 2, 2⟩, ⟨0, 0, 7⟩, ⟨2, 1, 1⟩]) x y) :=
  C16_csr (2 ^ 32) 3 3 _ (by decide) (by decide) (by decide) (by decide) 3 (by decide) x y

/-- C17: two block-rows of unequal height. -/
example (x y : Nat → Int) : ∃ A es', cooToCsbr (2 ^ 32) 8 [(⟨4, 3, 5, 0⟩ : Element Int), ⟨0, 0, 2, 0⟩, ⟨1, 3, 7, 0⟩, ⟨4, 3, 1, 0⟩]
      5 4 [0, 2, 5] 2 [0, 1, 4] 2 = .ok (A, es') ∧
    EverySchedule (fun Y => A.spmvP (2 ^ 32) (Buf.full 4 x) Y) 5 y
      (spmvExact (ents [(⟨4, 3, 5, 0⟩ : Element Int), ⟨0, 0, 2, 0⟩, ⟨1, 3, 7, 0⟩, ⟨4, 3, 1, 0⟩]) x y) :=
  C17_csbr (2 ^ 32) 8 5 4 _ _ _ _ _ ⟨rfl, rfl, rfl, by decide⟩ ⟨rfl, rfl, rfl, by decide⟩ (by decide) (by decide) (by decide)
    (by decide) (by decide) (by decide) (by decide) (by decide) (by decide) 4 (by decide) x y

/-- Three 1×1 dense blocks in one block-row. -/
def exampleGbr : Gbr (MatrixBlock Int) where
  blocks := Buf.ofList [.dense ⟨Buf.ofList [2], 1, 1⟩, .dense ⟨Buf.ofList [3], 1, 1⟩, .dense ⟨Buf.ofList [5], 1, 1⟩]
  blockrowPtr := Buf.ofList [0, 3]
  blockcolInd := Buf.ofList [0, 1, 2]
  typeBlocks := Buf.ofList [0, 0, 3, 0, 0, 0]
  typeNnz := Buf.ofList [0, 0, 3, 0, 0, 0]
  offR := [0, 1]
  offC := [0, 1, 2, 3]
  blockrows := 1
  blockcols := 3
  nnzblocks := 3
  rows := 1
  columns := 3
  nnz := 3

/-- C18: one chunk per block — two nested tasks with two temporaries. -/
example : ∃ y', spmvChunk (2 ^ 32) (Cgbr.toBlockMat (2 ^ 32) exampleGbr) [0, 1, 2, 3] (Buf.ofList [1, 10, 100]) 1 4 0 3
    (Buf.ofList [7]) 0 = .ok y' ∧ y'.get 0 = .ok 539 := ⟨_, rfl, rfl⟩

end Gsb
