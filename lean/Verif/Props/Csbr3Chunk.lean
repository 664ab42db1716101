import Verif.Proof.Csbr3Chunk
import Verif.Props.Schedule
import Verif.Props.Total
import Verif.Props.Outside
/-
C86: the task kernel of CSBR3 (include/spmv/omp/csbr.3.h).
-/
namespace Gsb
variable {T : Type}

/-- `c` cuts the range from `lo` to `hi` into `c.length - 1` pieces, some of them perhaps empty. -/
structure Cuts (c : List Nat) (lo hi : Nat) : Prop where
  size : 2 ≤ c.length
  sorted : c.Pairwise (· ≤ ·)
  first : c.head? = some lo
  last : c.getLast? = some hi

/-- Every block-row of the matrix is cut into chunks: list `bi` of `P` cuts the range of the blocks of block-row `bi`. -/
def CutsAll (M : Nat) (A : Csbr3 T) (P : List (List Nat)) : Prop :=
  ∀ bi, bi < A.blockrows → ∃ c lo hi, P[bi]? = some c ∧ A.blockrowPtr.get bi = .ok lo ∧ A.blockrowPtr.get (bi + 1) = .ok hi ∧
    Cuts c lo hi ∧ 2 * c.length ≤ M

section
variable [Add T] [Mul T] [Zero T]

/-- **C86.** However the block-rows are cut into chunks: each row of `y` gets its products, each exactly once, and otherwise only
zeros are added, on every schedule.  `y` has a whole number of blocks of rows. -/
theorem C86_chunks (M S rows columns bs : Nat) (es : List (Element T))
    (hbs : 0 < bs) (hS : bs ≤ S) (hne : es ≠ []) (hlen : es.length + 1 < M)
    (hgrid : ((rows + bs - 1) / bs) * ((columns + bs - 1) / bs) < M)
    (hrows : rows + bs < M) (hcols : columns + bs < M) (hin : InRange (ents es) rows columns) :
    ∃ A es', cooToCsbr3 M S es rows columns bs = .ok (A, es') ∧
      ∀ P, CutsAll M A P → ∀ nx, columns ≤ nx → ∀ x y : Nat → T,
        ∃ y', RowTotals (zeroPad 0 x) (ents es) ((rows + bs - 1) / bs * bs) x y y' ∧
          (∀ j, (rows + bs - 1) / bs * bs ≤ j → y' j = y j) ∧
          (∀ ny, (rows + bs - 1) / bs * bs ≤ ny →
            A.spmvChunked M P (Buf.full nx x) (Buf.full ny y) = .ok (Buf.full ny y')) ∧
          EverySchedule (fun Y => A.spmvChunkedP M P (Buf.full nx x) Y) ((rows + bs - 1) / bs * bs) y y' := by
  refine ⟨_, _, csbr3_main hbs hne hlen hgrid hrows hcols hin, ?_⟩
  have H := prepared3_blkIn (M := M) hbs hne (by omega) hgrid hrows hcols hin
  intro P hP nx hnx x y
  have hR1 := Nat.div_mul_le_self (rows + bs - 1) bs
  have hC1 := Nat.div_mul_le_self (columns + bs - 1) bs
  have hbr : (rows + bs - 1) / bs ≤ (rows + bs - 1) / bs * bs := Nat.le_mul_of_pos_right _ hbs
  have hperm := prepared3_ents_perm (bs := bs) (blockcols := (columns + bs - 1) / bs) (es := es)
  obtain ⟨F, R⟩ := csbr3_actRep (pad := zeroPad 0 x) (rows := rows) (columns := columns) H hS (by omega) (by omega) nx (fun e he => by
    have := (hin _ (mem_prepared3 he).2).2; simp only at this; omega) x
  generalize hes : prepared3 bs ((columns + bs - 1) / bs) es = es' at *
  generalize (columns + bs - 1) / bs = bc at *
  have hstep : ∀ i : Nat, (i + 1) * bs - i * bs = bs := by intro i; rw [Nat.add_mul]; omega
  generalize hbr' : (rows + bs - 1) / bs = br at *
  obtain ⟨G, W⟩ := rowActs_exist (M := M) (pad := zeroPad 0 x) (show zeroPad 0 x 0 from Or.inl rfl) R
    (by show br < M; omega) (by show br * bs < M; omega) false P (by
      intro _ bi hbi
      obtain ⟨c, lo, hi, c1, c2, c3, c4, c5⟩ := hP bi hbi
      have r1 := R.ptr bi (Nat.le_of_lt hbi)
      have r2 := R.ptr (bi + 1) hbi
      change (csbr3Of S bs rows columns br bc es').blockrowPtr.get bi = _ at r1
      change (csbr3Of S bs rows columns br bc es').blockrowPtr.get (bi + 1) = _ at r2
      rw [c2] at r1
      rw [c3] at r2
      injection r1 with r1
      injection r2 with r2
      refine ⟨c, c1, c5, c4.size, c4.sorted, ?_, ?_⟩
      · rw [c4.first, r1]; rfl
      · rw [c4.last, r2]; rfl)
  have hrow : ∀ ny, br * bs ≤ ny → ∀ bi, bi < br → ∀ z : Nat → T,
      (do let chunks ← rd P bi
          (csbr3Of S bs rows columns br bc es').spmvChunk M chunks (Buf.full nx x) chunks.length 0
            (subM M (chunks.length % M) 1) (Buf.full ny z) (mulM M bi (csbr3Of S bs rows columns br bc es').blockSize) : C (Buf T)) =
        .ok (Buf.full ny (winAct (bi * bs) ((bi + 1) * bs - bi * bs) (G bi) z)) := by
    intro ny hny bi hbi z
    obtain ⟨c, c1, c2, c3, c4⟩ := W.chunked rfl bi hbi
    have hrd : rd P bi = .ok c := by simp [rd, c1]
    have hle := Nat.mul_le_mul_right bs (show bi + 1 ≤ br from hbi)
    have hs := hstep bi
    rw [hrd, ok_bind, Csbr3.spmvChunk_eq, Nat.mod_eq_of_lt (show c.length < M by omega), subM_eq (by omega) (by omega)]
    have hb : (csbr3Of S bs rows columns br bc es').blockSize = bs := rfl
    rw [hb, mulM_eq (by omega)]
    have := c4 ny (bi * bs) z (by omega)
    rw [hstep] at this ⊢
    exact this
  obtain ⟨y', -, hy2, hy3⟩ := rows_act (n := br) (ny := br * bs) (fR := (· * bs)) G
      (fun bi z => do
        let chunks ← rd P bi
        (csbr3Of S bs rows columns br bc es').spmvChunk M chunks (Buf.full nx x) chunks.length 0
          (subM M (chunks.length % M) 1) z (mulM M bi (csbr3Of S bs rows columns br bc es').blockSize)) R.mono (hrow _ (Nat.le_refl _)) y
  refine ⟨y', ?_, hy3, ?_, ?_⟩
  · have key := rowTotals_of_rows R W.tot (by simp) hy2
    rw [allEnts_blkEnts H] at key
    exact RowTotals.perm hperm key
  · intro ny hny
    obtain ⟨z, z1, z2, z3⟩ := rows_act (n := br) (ny := ny) (fR := (· * bs)) G
      (fun bi z => do
        let chunks ← rd P bi
        (csbr3Of S bs rows columns br bc es').spmvChunk M chunks (Buf.full nx x) chunks.length 0
          (subM M (chunks.length % M) 1) z (mulM M bi (csbr3Of S bs rows columns br bc es').blockSize)) R.mono (hrow _ hny) y
    have hz : z = y' := by
      funext j
      by_cases hj : j < br * bs
      · have h1 := Nat.div_add_mod j bs
        have h2 : j / bs < br := (Nat.div_lt_iff_lt_mul hbs).2 hj
        have h3 := Nat.mod_lt j hbs
        rw [Nat.mul_comm] at h1
        have a := z2 (j / bs) h2 (j % bs) (by rw [hstep]; exact h3)
        have b := hy2 (j / bs) h2 (j % bs) (by rw [hstep]; exact h3)
        simp only [h1] at a b
        rw [a, b]
      · rw [z3 j (by omega), hy3 j (by omega)]
    rw [← hz]
    exact z1
  · refine everySchedule_of_safe (fun Y n => ?_)
    have h0 : (fun i => i * bs) 0 = 0 := by simp
    have e1 := windows_all (fR := fun i => i * bs) (A := (csbr3Of S bs rows columns br bc es').toBlockMat M) h0 Y y
    have e2 := windows_all (fR := fun i => i * bs) (A := (csbr3Of S bs rows columns br bc es').toBlockMat M) h0 Y y'
    change _ = arr Y 0 (Buf.full (br * bs) y) at e1
    change _ = arr Y 0 (Buf.full (br * bs) y') at e2
    rw [← e1, ← e2]
    refine safe_parFor_windows (Nat.zero_le _) (fun i _ hi => R.mono i hi) (fun bi _ hbi n => ?_) n
    rw [window_act R.mono hy2 hbi]
    obtain ⟨c, c1, c2, c3, c4⟩ := W.chunked rfl bi hbi
    have hrd : rd P bi = .ok c := by simp [rd, c1]
    have hle := Nat.mul_le_mul_right bs (show bi + 1 ≤ br from hbi)
    have hs := hstep bi
    refine safe_read hrd ?_
    rw [Csbr3.spmvChunkP_eq, Nat.mod_eq_of_lt (show c.length < M by omega), subM_eq (by omega) (by omega)]
    have hb : (csbr3Of S bs rows columns br bc es').blockSize = bs := rfl
    rw [hb, mulM_eq (by omega)]
    have := (safe_chunk (CodeFor.csbr3 M (csbr3Of S bs rows columns br bc es')) c (Buf.full nx x) ((bi + 1) * bs - bi * bs) c.length 0 (c.length - 1) Y (bi * bs) _ _ rfl
      (c4 _ 0 (fun i => y (bi * bs + i)) (by omega))).2 n
    unfold window
    rw [hstep] at this ⊢
    exact this

/-- One call: on block-row `bi`, with any `y` of at least `block_size` cells (the first is cell `yo`): those cells get the products of the
rows of the block-row, each exactly once, the others stay. -/
theorem C86_chunk (M S rows columns bs : Nat) (es : List (Element T))
    (hbs : 0 < bs) (hS : bs ≤ S) (hne : es ≠ []) (hlen : es.length + 1 < M)
    (hgrid : ((rows + bs - 1) / bs) * ((columns + bs - 1) / bs) < M)
    (hrows : rows + bs < M) (hcols : columns + bs < M) (hin : InRange (ents es) rows columns) :
    ∃ A es', cooToCsbr3 M S es rows columns bs = .ok (A, es') ∧
      ∀ bi c lo hi, bi * bs < rows → A.blockrowPtr.get bi = .ok lo → A.blockrowPtr.get (bi + 1) = .ok hi → Cuts c lo hi →
        2 * c.length ≤ M → ∀ nx, columns ≤ nx → ∀ (x y : Nat → T) ny yo, yo + bs ≤ ny →
        ∃ y', A.spmvChunk M c (Buf.full nx x) c.length 0 (c.length - 1) (Buf.full ny y) yo = .ok (Buf.full ny y') ∧
          (∀ r, r < bs → Total (zeroPad 0 x) (y (yo + r) :: products (ents es) x (bi * bs + r)) (y' (yo + r))) ∧
          ∀ j, ¬ (yo ≤ j ∧ j < yo + bs) → y' j = y j := by
  refine ⟨_, _, csbr3_main hbs hne hlen hgrid hrows hcols hin, ?_⟩
  have H := prepared3_blkIn (M := M) hbs hne (by omega) hgrid hrows hcols hin
  intro bi c lo hi hbi c2 c3 c4 c5 nx hnx x y ny yo hny
  have hR1 := Nat.div_mul_le_self (rows + bs - 1) bs
  have hC1 := Nat.div_mul_le_self (columns + bs - 1) bs
  have hbr : (rows + bs - 1) / bs ≤ (rows + bs - 1) / bs * bs := Nat.le_mul_of_pos_right _ hbs
  have hbi : bi < (rows + bs - 1) / bs := by
    have := ceil_lt hbs hbi
    rwa [Nat.mul_div_cancel _ hbs] at this
  have hperm := prepared3_ents_perm (bs := bs) (blockcols := (columns + bs - 1) / bs) (es := es)
  obtain ⟨F, R⟩ := csbr3_actRep (pad := zeroPad 0 x) (rows := rows) (columns := columns) H hS (by omega) (by omega) nx (fun e he => by
    have := (hin _ (mem_prepared3 he).2).2; simp only at this; omega) x
  generalize prepared3 bs ((columns + bs - 1) / bs) es = es' at *
  generalize (columns + bs - 1) / bs = bc at *
  have hstep : ∀ i : Nat, (i + 1) * bs - i * bs = bs := by intro i; rw [Nat.add_mul]; omega
  generalize hbr' : (rows + bs - 1) / bs = br at *
  have r1 := R.ptr bi (Nat.le_of_lt hbi)
  have r2 := R.ptr (bi + 1) hbi
  change (csbr3Of S bs rows columns br bc es').blockrowPtr.get bi = _ at r1
  change (csbr3Of S bs rows columns br bc es').blockrowPtr.get (bi + 1) = _ at r2
  rw [c2] at r1
  rw [c3] at r2
  injection r1 with r1
  injection r2 with r2
  obtain ⟨G, g1, g2, -⟩ := chunkedRow_act (M := M) (pad := zeroPad 0 x) (show zeroPad 0 x 0 from Or.inl rfl) R
    (by show br < M; omega) (by show br * bs < M; omega) (List.replicate (bi + 1) c) hbi (c := c) (by simp) c5 c4.size c4.sorted
    (by rw [c4.first, r1]; rfl) (by rw [c4.last, r2]; rfl)
  refine ⟨winAct yo bs (G) y, ?_, ?_, fun j hj => winAct_out _ _ _ _ hj⟩
  · rw [Csbr3.spmvChunk_eq]
    have := g2 ny yo y (by simp only [hstep]; exact hny)
    simp only [hstep] at this
    exact this
  · intro r hr
    rw [winAct_in _ _ _ _ hr]
    have h1 := g1 r (by simp only [hstep]; exact hr) (y (yo + r))
    have h2 := products_allEnts R hbi (r := r) (by simp only [hstep]; exact hr)
    rw [← h2, allEnts_blkEnts H] at h1
    exact .perm ((products_perm hperm x _).cons _) h1

omit [Zero T] in
theorem spmvCoo_len {v : Buf T} {ri ci : Buf Nat} {base nnz : Nat} {x : Buf T} {xo : Nat} {y y' : Buf T} {yo : Nat}
    (h : spmvCoo v ri ci base nnz x xo y yo = .ok y') : y'.len = y.len := by
  refine forLoop_end (fun z : Buf T => z.len = y.len) ?_ rfl h
  intro i s s' hs hf
  obtain ⟨_, -, hf⟩ := bind_ok hf
  obtain ⟨_, -, hf⟩ := bind_ok hf
  obtain ⟨_, -, hf⟩ := bind_ok hf
  rw [(macc_lt hf).2.2]; exact hs

theorem Csbr3.spmvChunk_len {M : Nat} {A : Csbr3 T} {c : List Nat} {x y y' : Buf T} {fuel first last yo : Nat}
    (h : A.spmvChunk M c x fuel first last y yo = .ok y') : y'.len = y.len := by
  induction fuel generalizing first last y y' yo with
  | zero => cases h
  | succ fuel ih =>
    unfold Csbr3.spmvChunk at h
    split at h
    · obtain ⟨lo, -, h⟩ := bind_ok h
      obtain ⟨hi, -, h⟩ := bind_ok h
      refine forLoop_end (fun z : Buf T => z.len = y.len) ?_ rfl h
      intro i s s' hs hf
      obtain ⟨_, -, hf⟩ := bind_ok hf
      obtain ⟨_, -, hf⟩ := bind_ok hf
      obtain ⟨_, -, hf⟩ := bind_ok hf
      rw [spmvCoo_len hf]; exact hs
    · obtain ⟨y1, h1, h⟩ := bind_ok h
      obtain ⟨t, -, h⟩ := bind_ok h
      rw [← ih h1]
      refine forLoop_end (fun z : Buf T => z.len = y1.len) ?_ rfl h
      intro i s s' hs hf
      obtain ⟨a, -, hf⟩ := bind_ok hf
      obtain ⟨b, -, hf⟩ := bind_ok hf
      rw [Buf.put_len hf]; exact hs

/-- With two or more chunks, all `block_size` cells from `y` on are written: the call ends only if they are there.  For *any* matrix
object and any list of chunks. -/
theorem C86_overrun (M : Nat) (A : Csbr3 T) (c : List Nat) (x y y' : Buf T) (fuel first last yo : Nat)
    (h2 : subM M last first ≠ 1) (hb : 0 < A.blockSize) (h : A.spmvChunk M c x fuel first last y yo = .ok y') :
    yo + A.blockSize ≤ y.len := by
  cases fuel with
  | zero => cases h
  | succ fuel =>
    unfold Csbr3.spmvChunk at h
    rw [if_neg h2] at h
    obtain ⟨y1, h1, h⟩ := bind_ok h
    obtain ⟨t, -, h⟩ := bind_ok h
    have hl := Csbr3.spmvChunk_len h1
    obtain ⟨u, u', hu, hf⟩ := forLoop_each (fun _ (z : Buf T) => z.len = y1.len) (by
      intro i s s' _ _ hs hf
      obtain ⟨a, -, hf⟩ := bind_ok hf
      obtain ⟨b, -, hf⟩ := bind_ok hf
      rw [Buf.put_len hf]; exact hs) rfl h (A.blockSize - 1) (by omega) (by omega)
    obtain ⟨a, hf, -⟩ := bind_ok hf
    have := Buf.get_lt hf
    omega

end

/-- In a semiring: `y + A x`. -/
theorem C86_chunks_sum [NonUnitalNonAssocSemiring T] (M S rows columns bs : Nat) (es : List (Element T))
    (hbs : 0 < bs) (hS : bs ≤ S) (hne : es ≠ []) (hlen : es.length + 1 < M)
    (hgrid : ((rows + bs - 1) / bs) * ((columns + bs - 1) / bs) < M)
    (hrows : rows + bs < M) (hcols : columns + bs < M) (hin : InRange (ents es) rows columns) :
    ∃ A es', cooToCsbr3 M S es rows columns bs = .ok (A, es') ∧
      ∀ P, CutsAll M A P → ∀ nx, columns ≤ nx → ∀ (x y : Nat → T) ny, (rows + bs - 1) / bs * bs ≤ ny →
        A.spmvChunked M P (Buf.full nx x) (Buf.full ny y) = .ok (Buf.full ny (spmvSum (ents es) x y)) := by
  obtain ⟨A, es', h1, h2⟩ := C86_chunks M S rows columns bs es hbs hS hne hlen hgrid hrows hcols hin
  refine ⟨A, es', h1, fun P hP nx hnx x y ny hny => ?_⟩
  obtain ⟨y', a, b, c, -⟩ := h2 P hP nx hnx x y
  rw [c ny hny]
  congr 2
  funext i
  by_cases hi : i < (rows + bs - 1) / bs * bs
  · exact C76_semiring _ _ 0 x y y' a i hi
  · rw [b i (by omega)]
    unfold spmvSum rowEntries
    rw [List.filter_eq_nil_iff.2 (by
      intro e he
      have := (hin e he).1
      have h3 : rows ≤ (rows + bs - 1) / bs * bs := by
        have h4 := Nat.div_add_mod (rows + bs - 1) bs
        have h5 := Nat.mod_lt (rows + bs - 1) hbs
        rw [Nat.mul_comm] at h4
        omega
      simp only [beq_iff_eq]; omega)]
    simp

end Gsb
