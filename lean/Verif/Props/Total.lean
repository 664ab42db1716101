import Verif.Par.Acts
import Verif.Props.Schedule
import Verif.Props.Cgbr
import Verif.Props.Coo
import Verif.Proof.Float
/-
Properties C76 and C77: what the formats that change the order of the additions compute without any law of arithmetic, and how
far from the exact result every format is in arithmetic with rounding.
-/
namespace Gsb
variable {T : Type}

/-! ### C76 -/

section
variable [Add T] [Mul T] [Zero T]

/-- **C76.** CGBR, any block types and either path: without any law of `+` and `*`, each `y[i]` of the result is a sum in some
order and bracketing of the old `y[i]` and each of row `i`'s products exactly once, the only other summands being zeroes and zeroes
times components of `x`; the rest of `y` is unchanged; and *every schedule* of the parallel kernel ends, without a race, with the
very same result as the loops run one after the other.  The serial kernel also computes such a sum. -/
theorem C76_cgbr (M S B workers rows columns : Nat) (choose : Nat → Nat → Nat → BlockChoice)
    (heavy : Nat → Nat → List Nat → Bool) (es : List (Element T))
    (offR : List Nat) (blockrows : Nat) (offC : List Nat) (blockcols : Nat)
    (PR : Partition offR blockrows rows) (PC : Partition offC blockcols columns)
    (hBS : B ≤ S) (hSR : BlocksAtMost offR B) (hSC : BlocksAtMost offC B)
    (hdense : ∀ rs cs n, rs ≤ B → cs ≤ B → n ≤ es.length → choose rs cs n = .dense → rs * cs < M)
    (hdup : (∀ rs cs n, choose rs cs n ≠ .dense) ∨ Distinct (ents es))
    (hw : 0 < workers) (hne : es ≠ []) (hlen : 2 * (es.length + 2) ≤ M) (hgrid : blockrows * blockcols < M)
    (hrows : rows + 1 < M) (hcols : columns < M) (hbr : blockrows ≤ rows) (hbc : blockcols ≤ columns)
    (hin : InRange (ents es) rows columns) :
    ∃ A es', cooToCgbr M S workers choose heavy es rows columns offR blockrows offC blockcols = .ok (A, es') ∧
      ∀ nx, columns ≤ nx → ∀ x y : Nat → T,
        (∃ y', RowTotals (zeroPad columns x) (ents es) rows x y y' ∧ (∀ j, rows ≤ j → y' j = y j) ∧
          (∀ ny, rows ≤ ny → A.spmv M (Buf.full nx x) (Buf.full ny y) = .ok (Buf.full ny y')) ∧
          EverySchedule (fun Y => A.spmvP M (Buf.full nx x) Y) rows y y') ∧
        ∃ y', RowTotals (zeroPad columns x) (ents es) rows x y y' ∧ (∀ j, rows ≤ j → y' j = y j) ∧
          ∀ ny, rows ≤ ny → A.spmvSerial M (Buf.full nx x) (Buf.full ny y) = .ok (Buf.full ny y') := by
  obtain ⟨res, b, P, h1, h2, h3, h4⟩ := cgbr_mainAct M S B workers rows columns choose heavy es offR blockrows offC blockcols PR PC
    hBS hSR hSC hdense hdup hw hne hlen hgrid hrows hcols hbr hbc hin
  refine ⟨_, _, h1, fun nx hnx x y => ⟨?_, ?_⟩⟩
  · obtain ⟨y', a1, a2, a3, a4⟩ := cgbr_acts (code := MatrixBlock.spmvP M) PR PC hne hlen hgrid hrows hcols hbr hbc hin h2
      (fun blk _ => CodeOk.matrixBlock M blk) b P h4 nx hnx x y
    exact ⟨y', a1, a2, a3, everySchedule_of_safe a4⟩
  · obtain ⟨y', a1, a2, a3, -⟩ := cgbr_acts (code := MatrixBlock.spmvSerialP M) PR PC hne hlen hgrid hrows hcols hbr hbc hin h3
      (fun blk _ => CodeOk.matrixBlockSerial M blk) true [] (fun h => by cases h) nx hnx x y
    exact ⟨y', a1, a2, a3⟩

/-- **C76** for constant block sizes. -/
theorem C76_cgbr_const (M S B workers rows columns brSize bcSize : Nat) (choose : Nat → Nat → Nat → BlockChoice)
    (heavy : Nat → Nat → List Nat → Bool) (es : List (Element T))
    (hbs1 : 0 < brSize) (hbs2 : 0 < bcSize) (hBS : B ≤ S) (hS1 : 2 * brSize ≤ B + 1) (hS2 : 2 * bcSize ≤ B + 1)
    (hdense : ∀ rs cs n, rs ≤ B → cs ≤ B → n ≤ es.length → choose rs cs n = .dense → rs * cs < M)
    (hdup : (∀ rs cs n, choose rs cs n ≠ .dense) ∨ Distinct (ents es))
    (hw : 0 < workers) (hne : es ≠ []) (hlen : 2 * (es.length + 2) ≤ M)
    (hgrid : max 1 (rows / brSize) * max 1 (columns / bcSize) < M)
    (hrows : rows + 1 < M) (hcols : columns + 1 < M) (hin : InRange (ents es) rows columns) :
    ∃ A es', cooToCgbrConst M S workers choose heavy es rows columns brSize bcSize = .ok (A, es') ∧
      ∀ nx, columns ≤ nx → ∀ x y : Nat → T,
        (∃ y', RowTotals (zeroPad columns x) (ents es) rows x y y' ∧ (∀ j, rows ≤ j → y' j = y j) ∧
          (∀ ny, rows ≤ ny → A.spmv M (Buf.full nx x) (Buf.full ny y) = .ok (Buf.full ny y')) ∧
          EverySchedule (fun Y => A.spmvP M (Buf.full nx x) Y) rows y y') ∧
        ∃ y', RowTotals (zeroPad columns x) (ents es) rows x y y' ∧ (∀ j, rows ≤ j → y' j = y j) ∧
          ∀ ny, rows ≤ ny → A.spmvSerial M (Buf.full nx x) (Buf.full ny y) = .ok (Buf.full ny y') := by
  obtain ⟨e0, he0⟩ := List.exists_mem_of_ne_nil es hne
  have h0 := hin _ (List.mem_map_of_mem (f := NZ.toEnt) he0)
  have hb1 : constBlocks rows brSize = max 1 (rows / brSize) := by
    unfold constBlocks; generalize rows / brSize = q; split <;> omega
  have hb2 : constBlocks columns bcSize = max 1 (columns / bcSize) := by
    unfold constBlocks; generalize columns / bcSize = q; split <;> omega
  unfold cooToCgbrConst
  rw [constOffsets_spec hbs1 (by omega) hrows, ok_bind, constOffsets_spec hbs2 (by omega) hcols, ok_bind]
  exact C76_cgbr M S B workers rows columns choose heavy es _ _ _ _ (constOff_partition rows brSize)
    (constOff_partition columns bcSize) hBS (blocksAtMost_const hbs1 hS1) (blocksAtMost_const hbs2 hS2) hdense hdup hw hne hlen
    (by rw [hb1, hb2]; exact hgrid) hrows (by omega) (constBlocks_le (by omega)) (constBlocks_le (by omega)) hin

/-- **C76** for CGBR2 with the library's factory, for either value of its uninitialised member `balanced` — but the sum may depend
on that value. -/
theorem C76_cgbr2 (M S B workers rows columns : Nat) (choose : Nat → Nat → Nat → FactoryChoice)
    (D : Prop) (es : List (Element T))
    (offR : List Nat) (blockrows : Nat) (offC : List Nat) (blockcols : Nat)
    (PR : Partition offR blockrows rows) (PC : Partition offC blockcols columns)
    (hBS : B ≤ S) (hSR : BlocksAtMost offR B) (hSC : BlocksAtMost offC B)
    (hdense : ∀ rs cs n, rs ≤ B → cs ≤ B → n < M → choose rs cs n = .dense → rs * cs < M ∧ D)
    (hdup : D → Distinct (ents es))
    (hw : 0 < workers) (hne : es ≠ []) (hlen : 2 * (es.length + 2) ≤ M) (hgrid : blockrows * blockcols < M)
    (hrows : rows + 1 < M) (hcols : columns < M) (hbr : blockrows ≤ rows) (hbc : blockcols ≤ columns)
    (hin : InRange (ents es) rows columns) :
    ∃ A es', cgbr2Create M workers (factoryDefault M S choose) es rows columns offR blockrows offC blockcols = .ok (A, es') ∧
      ∀ (balanced : Bool) nx, columns ≤ nx → ∀ x y : Nat → T,
        ∃ y', RowTotals (zeroPad columns x) (ents es) rows x y y' ∧ (∀ j, rows ≤ j → y' j = y j) ∧
          (∀ ny, rows ≤ ny → A.spmv M balanced (Buf.full nx x) (Buf.full ny y) = .ok (Buf.full ny y')) ∧
          EverySchedule (fun Y => A.spmvP M balanced (Buf.full nx x) Y) rows y y' := by
  obtain ⟨res, P, h1, h2, h3⟩ := cgbr2_mainAct M B workers rows columns (factoryDefault M S choose) D es offR blockrows offC blockcols
    PR PC hSR hSC (factoryOk M S choose)
    (by
      intro rs cs L a b c d
      unfold factoryOk
      split
      · exact ⟨Nat.le_trans a hBS, Nat.le_trans b hBS⟩
      · exact Nat.le_trans b hBS
      · exact Nat.le_trans b hBS
      · next h =>
        have := hdense _ _ _ a b (by omega) h
        exact ⟨this.1, d this.2⟩)
    (goodMakeAct_factory M S choose) hdup hw hne hlen hgrid hrows hcols hbr hbc hin
  refine ⟨_, _, h1, fun balanced nx hnx x y => ?_⟩
  obtain ⟨y', a1, a2, a3, a4⟩ := cgbr_acts (code := BlockObj.code) PR PC hne hlen hgrid hrows hcols hbr hbc hin h2
      (fun blk ⟨k, hk, e⟩ => by subst e; exact CodeOk.factory M S choose _ _ _ _ (h2 k hk).ok) balanced P (fun _ => h3) nx hnx x y
  exact ⟨y', a1, a2, a3, everySchedule_of_safe a4⟩

/-- **C76** for one dense block with no coordinate twice. -/
theorem C76_dense {ε : Type} [NZ ε T] (M rows columns : Nat) (es : List ε) (hM : rows * columns < M)
    (hin : InRange (ents es) rows columns) (hd : Distinct (ents es)) (x y : Nat → T) :
    ∃ (A : Dense T) (y' : Nat → T), mkDense M es rows columns = .ok A ∧ RowTotals (zeroPad columns x) (ents es) rows x y y' ∧
      A.spmv M (Buf.full columns x) 0 (Buf.full rows y) 0 = .ok (Buf.full rows y') ∧
      EverySchedule (fun Y => A.spmvP M (Buf.full columns x) 0 Y 0) rows y y' := by
  obtain ⟨A, h1, y', h2, h3⟩ := C05_dense_spmv M rows columns es hM hin x y
  refine ⟨A, y', h1, fun i hi => ?_, h2, C16_dense_kernel M A _ rows y _ h2⟩
  rw [h3 i hi]
  have := dense_total (ents es) rows columns hin hd columns 0 (by omega) x i (y i)
  simpa [shift_zero] using this

omit [Zero T] in
/-- The sum the other formats compute, in the order of C01, is such a sum with no other summands. -/
theorem C76_exact (es : List (Ent T)) (rows : Nat) (x y : Nat → T) : RowTotals noPad es rows x y (spmvExact es x y) :=
  rowTotals_exact es rows x y

omit [Zero T] in
/-- The sum in the order of the entries (COO) too. -/
theorem C76_inOrder (es : List (Ent T)) (rows : Nat) (x y : Nat → T) : RowTotals noPad es rows x y (spmvInOrder es x y) :=
  rowTotals_inOrder es rows x y

end

/-- In a commutative semiring `RowTotals` leaves no choice: it is `y + A x`. -/
theorem C76_semiring [NonUnitalNonAssocSemiring T] (es : List (Ent T)) (rows columns : Nat) (x y y' : Nat → T)
    (h : RowTotals (zeroPad columns x) es rows x y y') (i : Nat) (hi : i < rows) : y' i = spmvSum es x y i := by
  have key : ∀ (l : List T) (a : T), Total (zeroPad columns x) l a → a = l.sum := by
    intro l a h
    induction h with
    | one a => simp
    | pad h =>
      rcases h with h | ⟨c, -, h⟩
      · simp [h]
      · simp [h]
    | add _ _ h1 h2 => rw [List.sum_append, ← h1, ← h2]
    | perm h _ h1 => rw [h1, h.sum_eq]
  rw [key _ _ (h i hi), List.sum_cons]
  rfl

/-! ### C77 -/

section
variable [Add T] [Mul T] [Zero T] {val : T → ℝ} {fin : T → Prop} {u η : ℝ}

/-- **C77.** In arithmetic with rounding every sum of C76 is within the a-priori bound of the exact result, where it is finite. -/
theorem C77_bound (R : Rounded T val fin u η) (es : List (Ent T)) (rows columns : Nat) (x y y' : Nat → T)
    (h : RowTotals (zeroPad columns x) es rows x y y') : RowErrors val fin u η es rows x y y' := by
  intro i hi hf
  refine row_error R ?_ x (rowEntries es i) (y i) (y' i) (h i hi) hf
  rintro z (rfl | ⟨c, -, rfl⟩) hz
  · exact R.zero
  · exact R.zero_mul _ hz


/-- **C77** for CSR, under every schedule. -/
theorem C77_csr {ε : Type} [NZ ε T] (R : Rounded T val fin u η) (M rows columns : Nat) (es : List ε)
    (hnnz : es.length < M) (hrows : rows + 1 < M) (hcols : columns < M)
    (hin : InRange (ents es) rows columns) (nx : Nat) (hnx : columns ≤ nx) (x y : Nat → T) :
    ∃ A es' y', cooToCsr M es rows columns = .ok (A, es') ∧
      EverySchedule (fun Y => A.spmvP (Buf.full nx x) 0 Y 0) rows y y' ∧ RowErrors val fin u η (ents es) rows x y y' := by
  obtain ⟨A, es', h1, h2⟩ := C16_csr M rows columns es hnnz hrows hcols hin nx hnx x y
  exact ⟨A, es', _, h1, h2, C77_bound R _ rows 0 x y _ (rowTotals_exact _ rows x y)⟩

/-- **C77** for CSR2. -/
theorem C77_csr2 {ε : Type} [NZ ε T] (R : Rounded T val fin u η) (M rows columns : Nat) (es : List ε)
    (hnnz : es.length < M) (hrows : rows + 1 < M)
    (hin : InRange (ents es) rows columns) (nx : Nat) (hnx : columns ≤ nx) (x y : Nat → T) :
    ∃ A es' y', cooToCsr2 M es rows columns = .ok (A, es') ∧
      EverySchedule (fun Y => A.spmvP (Buf.full nx x) Y) rows y y' ∧ RowErrors val fin u η (ents es) rows x y y' := by
  obtain ⟨A, es', h1, h2⟩ := C16_csr2 M rows columns es hnnz hrows hin nx hnx x y
  exact ⟨A, es', _, h1, h2, C77_bound R _ rows 0 x y _ (rowTotals_exact _ rows x y)⟩

/-- **C77** for COO (serial), whatever order the sort left the entries in. -/
theorem C77_coo {ε : Type} [NZ ε T] (R : Rounded T val fin u η) (M S rows columns : Nat) (es : List ε)
    (hin : InRange (ents es) rows columns) (hfit : ∀ e ∈ ents es, e.row < S ∧ e.col < S) (x y : Nat → T) :
    ∃ A es' y', mkCoo M S es = .ok (A, es') ∧
      A.spmv (Buf.full columns x) 0 (Buf.full rows y) 0 = .ok (Buf.full rows y') ∧ RowErrors val fin u η (ents es) rows x y y' := by
  obtain ⟨A, es', h1, -, hp, -, h2⟩ := C04_coo_spmv M S rows columns es hin hfit x y
  exact ⟨A, es', _, h1, h2, C77_bound R _ rows 0 x y _ ((rowTotals_inOrder _ rows x y).perm (ents_perm hp))⟩

/-- **C77** for CSWR. -/
theorem C77_cswr {ε : Type} [NZ ε T] (R : Rounded T val fin u η) (M S rows columns width : Nat) (es : List ε)
    (hw : 0 < width) (hwS : width ≤ S) (hnnz : es.length < M) (hrows : rows + width < M)
    (hin : InRange (ents es) rows columns) (x y : Nat → T) :
    ∃ A es' y', cooToCswr M S es rows columns width = .ok (A, es') ∧
      EverySchedule (fun Y => A.spmvP M (Buf.full columns x) Y) rows y y' ∧ RowErrors val fin u η (ents es) rows x y y' := by
  obtain ⟨A, es', h1, h2⟩ := C17_cswr M S rows columns width es hw hwS hnnz hrows hin x y
  exact ⟨A, es', _, h1, h2, C77_bound R _ rows 0 x y _ (rowTotals_exact _ rows x y)⟩

/-- **C77** for CSBR. -/
theorem C77_csbr (R : Rounded T val fin u η) (M workers rows columns : Nat) (es : List (Element T))
    (offR : List Nat) (blockrows : Nat) (offC : List Nat) (blockcols : Nat)
    (PR : Partition offR blockrows rows) (PC : Partition offC blockcols columns)
    (hw : 0 < workers) (hne : es ≠ []) (hlen : es.length < M) (hgrid : blockrows * blockcols < M)
    (hrows : rows + 1 < M) (hcols : columns < M) (hbr : blockrows ≤ rows) (hbc : blockcols ≤ columns)
    (hin : InRange (ents es) rows columns) (nx : Nat) (hnx : columns ≤ nx) (x y : Nat → T) :
    ∃ A es' y', cooToCsbr M workers es rows columns offR blockrows offC blockcols = .ok (A, es') ∧
      EverySchedule (fun Y => A.spmvP M (Buf.full nx x) Y) rows y y' ∧ RowErrors val fin u η (ents es) rows x y y' := by
  obtain ⟨A, es', h1, h2⟩ := C17_csbr M workers rows columns es offR blockrows offC blockcols PR PC hw hne hlen hgrid hrows hcols
    hbr hbc hin nx hnx x y
  exact ⟨A, es', _, h1, h2, C77_bound R _ rows 0 x y _ (rowTotals_exact _ rows x y)⟩

/-- **C77** for CSBR2. -/
theorem C77_csbr2 (R : Rounded T val fin u η) (M rows columns : Nat) (es : List (Element T))
    (offR : List Nat) (blockrows : Nat) (offC : List Nat) (blockcols : Nat)
    (PR : Partition offR blockrows rows) (PC : Partition offC blockcols columns)
    (hne : es ≠ []) (hlen : es.length < M) (hgrid : blockrows * blockcols < M)
    (hrows : rows + 1 < M) (hcols : columns < M) (hbr : blockrows ≤ rows) (hbc : blockcols ≤ columns)
    (hin : InRange (ents es) rows columns) (nx : Nat) (hnx : columns ≤ nx) (x y : Nat → T) :
    ∃ A es' y', cooToCsbr2 M es rows columns offR blockrows offC blockcols = .ok (A, es') ∧
      EverySchedule (fun Y => A.spmvP M (Buf.full nx x) Y) rows y y' ∧ RowErrors val fin u η (ents es) rows x y y' := by
  obtain ⟨A, es', h1, h2⟩ := C17_csbr2 M rows columns es offR blockrows offC blockcols PR PC hne hlen hgrid hrows hcols
    hbr hbc hin nx hnx x y
  exact ⟨A, es', _, h1, h2, C77_bound R _ rows 0 x y _ (rowTotals_exact _ rows x y)⟩

/-- **C77** for CSBR3. -/
theorem C77_csbr3 (R : Rounded T val fin u η) (M S rows columns bs : Nat) (es : List (Element T))
    (hbs : 0 < bs) (hS : bs ≤ S) (hne : es ≠ []) (hlen : es.length + 1 < M)
    (hgrid : ((rows + bs - 1) / bs) * ((columns + bs - 1) / bs) < M)
    (hrows : rows + bs < M) (hcols : columns + bs < M) (hin : InRange (ents es) rows columns)
    (nx : Nat) (hnx : columns ≤ nx) (x y : Nat → T) :
    ∃ A es' y', cooToCsbr3 M S es rows columns bs = .ok (A, es') ∧
      EverySchedule (fun Y => A.spmvP M (Buf.full nx x) Y) rows y y' ∧ RowErrors val fin u η (ents es) rows x y y' := by
  obtain ⟨A, es', h1, h2⟩ := C17_csbr3 M S rows columns bs es hbs hS hne hlen hgrid hrows hcols hin nx hnx x y
  exact ⟨A, es', _, h1, h2, C77_bound R _ rows 0 x y _ (rowTotals_exact _ rows x y)⟩

/-- **C77** for CGBR, both kernels, under every schedule. -/
theorem C77_cgbr (R : Rounded T val fin u η) (M S B workers rows columns : Nat) (choose : Nat → Nat → Nat → BlockChoice)
    (heavy : Nat → Nat → List Nat → Bool) (es : List (Element T))
    (offR : List Nat) (blockrows : Nat) (offC : List Nat) (blockcols : Nat)
    (PR : Partition offR blockrows rows) (PC : Partition offC blockcols columns)
    (hBS : B ≤ S) (hSR : BlocksAtMost offR B) (hSC : BlocksAtMost offC B)
    (hdense : ∀ rs cs n, rs ≤ B → cs ≤ B → n ≤ es.length → choose rs cs n = .dense → rs * cs < M)
    (hdup : (∀ rs cs n, choose rs cs n ≠ .dense) ∨ Distinct (ents es))
    (hw : 0 < workers) (hne : es ≠ []) (hlen : 2 * (es.length + 2) ≤ M) (hgrid : blockrows * blockcols < M)
    (hrows : rows + 1 < M) (hcols : columns < M) (hbr : blockrows ≤ rows) (hbc : blockcols ≤ columns)
    (hin : InRange (ents es) rows columns) (nx : Nat) (hnx : columns ≤ nx) (x y : Nat → T) :
    ∃ A es', cooToCgbr M S workers choose heavy es rows columns offR blockrows offC blockcols = .ok (A, es') ∧
      (∃ y', EverySchedule (fun Y => A.spmvP M (Buf.full nx x) Y) rows y y' ∧ RowErrors val fin u η (ents es) rows x y y') ∧
      ∃ y', A.spmvSerial M (Buf.full nx x) (Buf.full rows y) = .ok (Buf.full rows y') ∧ RowErrors val fin u η (ents es) rows x y y' := by
  obtain ⟨A, es', h1, h2⟩ := C76_cgbr M S B workers rows columns choose heavy es offR blockrows offC blockcols PR PC
    hBS hSR hSC hdense hdup hw hne hlen hgrid hrows hcols hbr hbc hin
  obtain ⟨⟨y1, a1, -, -, a4⟩, y2, b1, -, b3⟩ := h2 nx hnx x y
  exact ⟨A, es', h1, ⟨y1, a4, C77_bound R _ rows columns x y _ a1⟩, y2, b3 rows (Nat.le_refl _), C77_bound R _ rows columns x y _ b1⟩

/-- **C77** for CGBR2 with the library's factory, under every schedule and for either value of its uninitialised member. -/
theorem C77_cgbr2 (R : Rounded T val fin u η) (M S B workers rows columns : Nat) (choose : Nat → Nat → Nat → FactoryChoice)
    (D : Prop) (es : List (Element T))
    (offR : List Nat) (blockrows : Nat) (offC : List Nat) (blockcols : Nat)
    (PR : Partition offR blockrows rows) (PC : Partition offC blockcols columns)
    (hBS : B ≤ S) (hSR : BlocksAtMost offR B) (hSC : BlocksAtMost offC B)
    (hdense : ∀ rs cs n, rs ≤ B → cs ≤ B → n < M → choose rs cs n = .dense → rs * cs < M ∧ D)
    (hdup : D → Distinct (ents es))
    (hw : 0 < workers) (hne : es ≠ []) (hlen : 2 * (es.length + 2) ≤ M) (hgrid : blockrows * blockcols < M)
    (hrows : rows + 1 < M) (hcols : columns < M) (hbr : blockrows ≤ rows) (hbc : blockcols ≤ columns)
    (hin : InRange (ents es) rows columns) (nx : Nat) (hnx : columns ≤ nx) (balanced : Bool) (x y : Nat → T) :
    ∃ A es' y', cgbr2Create M workers (factoryDefault M S choose) es rows columns offR blockrows offC blockcols = .ok (A, es') ∧
      EverySchedule (fun Y => A.spmvP M balanced (Buf.full nx x) Y) rows y y' ∧ RowErrors val fin u η (ents es) rows x y y' := by
  obtain ⟨A, es', h1, h2⟩ := C76_cgbr2 M S B workers rows columns choose D es offR blockrows offC blockcols PR PC
    hBS hSR hSC hdense hdup hw hne hlen hgrid hrows hcols hbr hbc hin
  obtain ⟨y1, a1, -, -, a4⟩ := h2 balanced nx hnx x y
  exact ⟨A, es', y1, h1, a4, C77_bound R _ rows columns x y _ a1⟩

/-- **C77** for one dense block with no coordinate twice. -/
theorem C77_dense {ε : Type} [NZ ε T] (R : Rounded T val fin u η) (M rows columns : Nat) (es : List ε) (hM : rows * columns < M)
    (hin : InRange (ents es) rows columns) (hd : Distinct (ents es)) (x y : Nat → T) :
    ∃ (A : Dense T) (y' : Nat → T), mkDense M es rows columns = .ok A ∧
      EverySchedule (fun Y => A.spmvP M (Buf.full columns x) 0 Y 0) rows y y' ∧ RowErrors val fin u η (ents es) rows x y y' := by
  obtain ⟨A, y', h1, h2, -, h3⟩ := C76_dense M rows columns es hM hin hd x y
  exact ⟨A, y', h1, h3, C77_bound R _ rows columns x y _ h2⟩

/-- **C77**, overflow: a row of finite numbers has a finite result, in every format and order, unless its terms are large; `x` must
be finite also where the row has no entry, for a dense block multiplies it by zero. -/
theorem C77_finite {Ω : ℝ} (R : Rounded T val fin u η) (O : NoOverflow T val fin Ω) (es : List (Ent T)) (rows columns : Nat)
    (x y y' : Nat → T) (h : RowTotals (zeroPad columns x) es rows x y y') (hΩ : 0 ≤ Ω)
    (hx : ∀ c, c < columns → fin (x c)) (hin : InRange es rows columns) (i : Nat) (hi : i < rows) (hy : fin (y i))
    (hv : ∀ e ∈ es, e.row = i → fin e.val)
    (hs : (1 + u) ^ ((rowEntries es i).length + 1) * (sizeRow val es x y i + (rowEntries es i).length * η) ≤ Ω) : fin (y' i) := by
  have hpf : ∀ z, zeroPad columns x z → fin z := by
    rintro z (rfl | ⟨c, hc, rfl⟩)
    · exact O.zero
    · exact O.mul _ _ O.zero (hx c hc) (by rw [R.zero]; simpa using hΩ)
  refine row_finite R O ?_ hpf x (rowEntries es i) (y i) (y' i) (h i hi) hy ?_ hs
  · rintro z (rfl | ⟨c, -, rfl⟩) hz
    · exact R.zero
    · exact R.zero_mul _ hz
  · intro e he
    have := List.mem_filter.1 he
    exact ⟨hv e this.1 (by simpa using this.2), hx _ (hin e this.1).2⟩

/-- **C77**, overflow, for the formats that add nothing but the products (all but CGBR, CGBR2 and dense blocks): `x` need be finite only
where the row has an entry. -/
theorem C77_finite_sparse {Ω : ℝ} (R : Rounded T val fin u η) (O : NoOverflow T val fin Ω) (es : List (Ent T)) (rows : Nat)
    (x y y' : Nat → T) (h : RowTotals noPad es rows x y y') (i : Nat) (hi : i < rows) (hy : fin (y i))
    (hv : ∀ e ∈ es, e.row = i → fin e.val ∧ fin (x e.col))
    (hs : (1 + u) ^ ((rowEntries es i).length + 1) * (sizeRow val es x y i + (rowEntries es i).length * η) ≤ Ω) : fin (y' i) := by
  refine row_finite R O (fun _ h => h.elim) (fun _ h => h.elim) x (rowEntries es i) (y i) (y' i) (h i hi) hy ?_ hs
  intro e he
  have := List.mem_filter.1 he
  exact hv e this.1 (by simpa using this.2)

/-- **C77**, the difference: one infinity or NaN in `x` makes every row of the product with a dense block infinite or NaN, also the rows
that have no entry in that column. -/
theorem C77_dense_infinite {ε : Type} [NZ ε T] (R : Rounded T val fin u η) (M rows columns : Nat) (es : List ε) (hM : rows * columns < M)
    (hin : InRange (ents es) rows columns) (x y : Nat → T) (c : Nat) (hc : c < columns) (hx : ¬ fin (x c)) :
    ∃ (A : Dense T) (y' : Nat → T), mkDense M es rows columns = .ok A ∧
      EverySchedule (fun Y => A.spmvP M (Buf.full columns x) 0 Y 0) rows y y' ∧ ∀ i, i < rows → ¬ fin (y' i) := by
  obtain ⟨A, h1, y', h2, h3⟩ := C05_dense_spmv M rows columns es hM hin x y
  refine ⟨A, y', h1, C16_dense_kernel M A _ rows y _ h2, fun i hi hf => ?_⟩
  rw [h3 i hi] at hf
  have key : ∀ (l : List Nat) (a : T), fin (l.foldl (fun acc j => acc + lastAt (ents es) i j * x j) a) →
      fin a ∧ ∀ j ∈ l, fin (x j) := by
    intro l
    induction l with
    | nil => intro a h; exact ⟨h, by simp⟩
    | cons j l ih =>
      intro a h
      obtain ⟨a1, a2⟩ := ih _ h
      have b := R.add_fin _ _ a1
      refine ⟨b.1, ?_⟩
      intro k hk
      rcases List.mem_cons.1 hk with rfl | hk
      · exact (R.mul_fin _ _ b.2).2
      · exact a2 k hk
  exact hx ((key _ _ hf).2 c (List.mem_range.2 hc))

omit [Add T] [Mul T] [Zero T] in
/-- **C77**, comparison: two results within the bound of the same row differ by at most twice the bound, where both are finite. -/
theorem C77_agree (es : List (Ent T)) (rows : Nat) (x y y1 y2 : Nat → T) (h1 : RowErrors val fin u η es rows x y y1)
    (h2 : RowErrors val fin u η es rows x y y2) (i : Nat) (hi : i < rows) (f1 : fin (y1 i)) (f2 : fin (y2 i)) :
    |val (y1 i) - val (y2 i)| ≤ 2 * errorBound u η (rowEntries es i).length (sizeRow val es x y i) := by
  have a := abs_le.1 (h1 i hi f1)
  have b := abs_le.1 (h2 i hi f2)
  rw [abs_le]
  constructor <;> linarith [a.1, a.2, b.1, b.2]

/-- **C77**, exactness: if nothing is rounded the results are exact. -/
theorem C77_exact (R : Rounded T val fin 0 0) (es : List (Ent T)) (rows columns : Nat) (x y y' : Nat → T)
    (h : RowTotals (zeroPad columns x) es rows x y y') (i : Nat) (hi : i < rows) (hf : fin (y' i)) :
    val (y' i) = exactRow val es x y i := by
  have := C77_bound R es rows columns x y y' h i hi hf
  unfold errorBound at this
  simp at this
  linarith

end

/-- **C77**, IEEE 754: numbers with `p` significant bits, rounded to nearest, ties to even, with gradual underflow to multiples of
`2^emin`, satisfy the hypotheses above with unit round-off `2^-p` and underflow error `2^(emin-1)`, and do not overflow up to `2^emax`;
`binary32` is `p = 24`, `emin = -149`, `emax = 127` and `binary64` is `p = 53`, `emin = -1074`, `emax = 1023`. -/
theorem C77_ieee (p : Nat) (emin emax : ℤ) (hp : 1 ≤ p) (he : emin ≤ emax) :
    Rounded (Flt p emin emax) Flt.val Flt.fin (2 ^ (-(p : ℤ))) (2 ^ (emin - 1)) ∧
    NoOverflow (Flt p emin emax) Flt.val Flt.fin (2 ^ emax) :=
  ⟨flt_rounded p emin emax, flt_noOverflow hp he⟩

end Gsb
