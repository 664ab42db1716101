import Verif.Proof.IoBlocked
import Verif.Props.Csr
import Verif.Props.Coo
import Verif.Props.Other
import Verif.Props.Csbr
import Verif.Props.Cgbr
/-
C85: entries that are not inside the matrix.
-/
namespace Gsb
variable {T : Type}

/-! ### Loops that end well -/

/-- A loop that ends well keeps an invariant. -/
theorem forLoop_end {σ : Type} {lo hi : Nat} {f : Nat → σ → C σ} (P : σ → Prop) (step : ∀ i s s', P s → f i s = .ok s' → P s')
    {s t : σ} (h0 : P s) (h : forLoop lo hi s f = .ok t) : P t := by
  by_cases hle : lo ≤ hi
  · obtain ⟨n, rfl⟩ : ∃ n, hi = lo + n := ⟨hi - lo, by omega⟩
    clear hle
    induction n generalizing lo s with
    | zero =>
      rw [forLoop_empty (by omega)] at h
      cases h
      exact h0
    | succ n ih =>
      rw [forLoop_step (by omega)] at h
      obtain ⟨s1, h1, h2⟩ := bind_ok h
      exact ih (lo := lo + 1) (step _ _ _ h0 h1) (by rw [show lo + 1 + n = lo + (n + 1) by omega]; exact h2)
  · rw [forLoop_empty (by omega)] at h
    cases h
    exact h0

/-- If a loop ends well, so does each of its iterations, from a state with the invariant. -/
theorem forLoop_each {σ : Type} {lo hi : Nat} {f : Nat → σ → C σ} (P : Nat → σ → Prop)
    (step : ∀ i s s', lo ≤ i → i < hi → P i s → f i s = .ok s' → P (i + 1) s')
    {s t : σ} (h0 : P lo s) (h : forLoop lo hi s f = .ok t) :
    ∀ i, lo ≤ i → i < hi → ∃ u u', P i u ∧ f i u = .ok u' := by
  by_cases hle : lo ≤ hi
  · obtain ⟨n, rfl⟩ : ∃ n, hi = lo + n := ⟨hi - lo, by omega⟩
    clear hle
    revert h0 step h
    induction n generalizing lo s with
    | zero =>
      intro _ _ h
      rw [forLoop_empty (by omega)] at h
      exact fun i _ _ => by omega
    | succ n ih =>
      intro h0 step h
      rw [forLoop_step (by omega)] at h
      obtain ⟨s1, h1, h2⟩ := bind_ok h
      have hr := ih (lo := lo + 1) (s := s1) (step lo s s1 (by omega) (by omega) h0 h1)
        (fun i s s' a b => step i s s' (by omega) (by omega)) (by rw [show lo + 1 + n = lo + (n + 1) by omega]; exact h2)
      intro i hi hi'
      rcases Nat.eq_or_lt_of_le hi with rfl | hi
      · exact ⟨s, s1, h0, h1⟩
      · exact hr i hi (by omega)
  · exact fun i _ _ => by omega

/-- A loop that ends well leads from the invariant at its beginning to the invariant at its end. -/
theorem forLoop_final {σ : Type} {lo hi : Nat} {f : Nat → σ → C σ} (P : Nat → σ → Prop)
    (step : ∀ i s s', lo ≤ i → i < hi → P i s → f i s = .ok s' → P (i + 1) s')
    {s t : σ} (hle : lo ≤ hi) (h0 : P lo s) (h : forLoop lo hi s f = .ok t) : P hi t := by
  obtain ⟨n, rfl⟩ : ∃ n, hi = lo + n := ⟨hi - lo, by omega⟩
  clear hle
  revert h0 step h
  induction n generalizing lo s with
  | zero =>
    intro _ h0 h
    rw [forLoop_empty (by omega)] at h
    cases h
    assumption
  | succ n ih =>
    intro h0 step h
    rw [forLoop_step (by omega)] at h
    obtain ⟨s1, h1, h2⟩ := bind_ok h
    have := ih (lo := lo + 1) (s := s1) (step lo s s1 (by omega) (by omega) h0 h1)
      (fun i s s' a b => step i s s' (by omega) (by omega)) (by rw [show lo + 1 + n = lo + (n + 1) by omega]; exact h2)
    rw [show lo + 1 + n = lo + (n + 1) by omega] at this
    exact this

theorem Buf.get_lt {α : Type} {b : Buf α} {i : Nat} {a : α} (h : b.get i = .ok a) : i < b.len := by
  unfold Buf.get at h
  by_cases hi : i < b.len
  · exact hi
  · rw [if_neg hi] at h; cases h

theorem Buf.put_len {α : Type} {b b' : Buf α} {i : Nat} {a : α} (h : b.put i a = .ok b') : b'.len = b.len := by
  unfold Buf.put at h
  by_cases hi : i < b.len
  · rw [if_pos hi] at h; cases h; rfl
  · rw [if_neg hi] at h; cases h

theorem incr_lt {M k : Nat} {p p' : Buf Nat} (h : incr M p k = .ok p') : k < p.len ∧ p'.len = p.len := by
  obtain ⟨c, h1, h2⟩ := bind_ok h
  exact ⟨Buf.get_lt h1, Buf.put_len h2⟩

theorem macc_lt [Add T] [Mul T] {y y' x : Buf T} {k c : Nat} {v : T} (h : macc y k v x c = .ok y') :
    k < y.len ∧ c < x.len ∧ y'.len = y.len := by
  obtain ⟨xc, h1, h⟩ := bind_ok h
  obtain ⟨yk, h2, h3⟩ := bind_ok h
  exact ⟨Buf.get_lt h2, Buf.get_lt h1, Buf.put_len h3⟩

/-! ### CSR -/

section
variable {ε : Type} [NZ ε T]

theorem csrBuild_rows {M S rows columns : Nat} {es : List ε} {A : Csr T} (h : csrBuild M S es rows columns = .ok A)
    (hrows : rows + 1 < M) (hr : ∀ e ∈ ents es, e.row + 1 < M) : ∀ e ∈ ents es, e.row < rows := by
  obtain ⟨s, h1, -⟩ := bind_ok h
  have hlen : (Buf.filled (addM M rows 1) (0 : Nat)).len = rows + 1 := addM_eq hrows
  have h2 := forLoop_each (fun _ (s : Buf Nat × Buf T × Buf Nat) => s.2.2.len = rows + 1) (by
    intro i s s' _ _ hs hf
    obtain ⟨e, -, hf⟩ := bind_ok hf
    obtain ⟨ci, -, hf⟩ := bind_ok hf
    obtain ⟨v, -, hf⟩ := bind_ok hf
    obtain ⟨rp, h4, hf⟩ := bind_ok hf
    cases hf
    exact (incr_lt h4).2.trans hs) hlen h1
  intro e he
  obtain ⟨i, hi, rfl⟩ := List.getElem_of_mem he
  have hi' : i < es.length := by simpa [ents] using hi
  obtain ⟨u, u', hu, hf⟩ := h2 i (Nat.zero_le _) hi'
  unfold csrFillStep at hf
  rw [rd_ok hi', ok_bind] at hf
  obtain ⟨ci, -, hf⟩ := bind_ok hf
  obtain ⟨v, -, hf⟩ := bind_ok hf
  obtain ⟨rp, h4, hf⟩ := bind_ok hf
  have := (incr_lt h4).1
  have hm := hr _ (List.getElem_mem hi)
  simp only [ents, List.getElem_map] at hm ⊢
  rw [addM_eq hm] at this
  omega

theorem spmvCsr_cols [Add T] [Mul T] {L : List (Ent T)} {rows : Nat} {rp ci : Buf Nat} {v : Buf T}
    (R : CsrRep L 0 rows rp ci v) {x y y' : Buf T} (h : spmvCsr rp ci v 0 rows x 0 y 0 = .ok y') : ∀ e ∈ L, e.col < x.len := by
  intro e he
  obtain ⟨j, hj, rfl⟩ := List.getElem_of_mem he
  have hi := R.range _ (List.getElem_mem hj)
  have h2 := forLoop_each (fun _ _ => True) (fun _ _ _ _ _ _ _ => trivial) trivial h
  obtain ⟨u, u', -, hf⟩ := h2 _ (Nat.zero_le _) hi
  unfold spmvCsrRow at hf
  have := R.rpLen
  rw [Buf.get_ok (by omega) (R.rpDat _ (by omega)), ok_bind, Buf.get_ok (by omega) (R.rpDat _ (by omega)), ok_bind] at hf
  have h3 := forLoop_each (fun _ _ => True) (fun _ _ _ _ _ _ _ => trivial) trivial hf
  have g1 := (getElem_lt_iff L (·.row) R.sorted (L[j].row + 1) j hj).1 (by omega)
  have g2 := mt (getElem_lt_iff L (·.row) R.sorted L[j].row j hj).2 (by omega)
  obtain ⟨u, u', -, hf⟩ := h3 j (by omega) g1
  unfold csrInner at hf
  rw [Buf.get_ok (R.vDat j hj).1 (R.vDat j hj).2, ok_bind, Buf.get_ok (R.ciDat j hj).1 (R.ciDat j hj).2, ok_bind] at hf
  have := (macc_lt hf).2.1
  omega

/-- **C85** for CSR: whatever coordinates the array holds (except the largest row number the index type has, see
`C85_csr_last_row`), if the conversion and the product come to an end then every entry was inside the matrix, and the product is
right. -/
theorem C85_csr [Add T] [Mul T] (M rows columns : Nat) (es : List ε) (hnnz : es.length < M) (hrows : rows + 1 < M)
    (hcols : columns < M) (hidx : ∀ e ∈ ents es, e.row + 1 < M ∧ e.col < M) (x y : Nat → T) (y' : Buf T)
    (h : (do let r ← cooToCsr M es rows columns
             r.1.spmv (Buf.full columns x) 0 (Buf.full rows y) 0) = .ok y') :
    InRange (ents es) rows columns ∧ y' = Buf.full rows (spmvExact (ents es) x y) := by
  obtain ⟨⟨A, es'⟩, h1, h2⟩ := bind_ok h
  obtain ⟨A, h3, h4⟩ := bind_ok h1
  cases h4
  have hp := ents_perm (sortTriplets_perm es true)
  have hrow : ∀ e ∈ ents es, e.row < rows := fun e he =>
    csrBuild_rows h3 hrows (fun e he => (hidx e (hp.mem_iff.1 he)).1) e (hp.mem_iff.2 he)
  have hrow' : ∀ e ∈ sortTriplets es, (NZ.toEnt e).row < rows := fun e he =>
    hrow _ (hp.mem_iff.1 (List.mem_map_of_mem he))
  simp only [Bool.false_eq_true, if_false] at h3
  rw [csrBuild_spec M M _ rows columns (by rw [length_sortTriplets]; exact hnnz) hrows hrow'] at h3
  cases h3
  have R := csrOf_rep M (sortTriplets es) rows columns hrow' (sortTriplets_sorted es)
  have hc := spmvCsr_cols R h2
  rw [truncCols_eq (fun e he => (hidx e (hp.mem_iff.1 he)).2)] at hc
  have hin : InRange (ents es) rows columns := fun e he => ⟨hrow e he, hc e (hp.mem_iff.2 he)⟩
  refine ⟨hin, ?_⟩
  obtain ⟨A, es', g1, g2, -⟩ := C01_csr_spmv M rows columns es hnnz hrows hcols hin columns rows (Nat.le_refl _) (Nat.le_refl _) x y
  rw [g1, ok_bind] at h
  rw [g2] at h
  cases h
  rfl

theorem spmvCsrSerial_cols [Add T] [Mul T] {L : List (Ent T)} {rows : Nat} {rp ci : Buf Nat} {v : Buf T}
    (R : CsrRep L 0 rows rp ci v) {x y y' : Buf T} (h : spmvCsrSerial rp ci v 0 rows x 0 y 0 = .ok y') :
    ∀ e ∈ L, e.col < x.len := by
  intro e he
  obtain ⟨j, hj, rfl⟩ := List.getElem_of_mem he
  have hi := R.range _ (List.getElem_mem hj)
  have hlen := R.rpLen
  unfold spmvCsrSerial at h
  rw [Buf.get_ok (by omega) (R.rpDat 0 (by omega)), ok_bind] at h
  obtain ⟨s, h1, -⟩ := bind_ok h
  have h2 := forLoop_each (fun i (s : Nat × Buf T) => s.1 = L.countP (fun e => decide (e.row < i))) (by
    intro i s s' _ hir hs hf
    rw [Buf.get_ok (by omega) (R.rpDat (i + 1) (by omega)), ok_bind] at hf
    obtain ⟨y1, -, hf⟩ := bind_ok hf
    cases hf
    rfl) rfl h1
  obtain ⟨u, u', hu, hf⟩ := h2 _ (Nat.zero_le _) hi
  rw [Buf.get_ok (by omega) (R.rpDat _ (by omega)), ok_bind] at hf
  obtain ⟨y1, hf, -⟩ := bind_ok hf
  have h3 := forLoop_each (fun _ _ => True) (fun _ _ _ _ _ _ _ => trivial) trivial hf
  have g1 := (getElem_lt_iff L (·.row) R.sorted (L[j].row + 1) j hj).1 (by omega)
  have g2 := mt (getElem_lt_iff L (·.row) R.sorted L[j].row j hj).2 (by omega)
  obtain ⟨u, u', -, hf⟩ := h3 j (by omega) g1
  unfold csrInner at hf
  rw [Buf.get_ok (R.vDat j hj).1 (R.vDat j hj).2, ok_bind, Buf.get_ok (R.ciDat j hj).1 (R.ciDat j hj).2, ok_bind] at hf
  have := (macc_lt hf).2.1
  omega

/-- **C85** for the serial CSR kernel. -/
theorem C85_csr_serial [Add T] [Mul T] (M rows columns : Nat) (es : List ε) (hnnz : es.length < M) (hrows : rows + 1 < M)
    (hcols : columns < M) (hidx : ∀ e ∈ ents es, e.row + 1 < M ∧ e.col < M) (x y : Nat → T) (y' : Buf T)
    (h : (do let r ← cooToCsr M es rows columns
             r.1.spmvSerial (Buf.full columns x) 0 (Buf.full rows y) 0) = .ok y') :
    InRange (ents es) rows columns ∧ y' = Buf.full rows (spmvExact (ents es) x y) := by
  obtain ⟨⟨A, es'⟩, h1, h2⟩ := bind_ok h
  obtain ⟨A, h3, h4⟩ := bind_ok h1
  cases h4
  have hp := ents_perm (sortTriplets_perm es true)
  have hrow : ∀ e ∈ ents es, e.row < rows := fun e he =>
    csrBuild_rows h3 hrows (fun e he => (hidx e (hp.mem_iff.1 he)).1) e (hp.mem_iff.2 he)
  have hrow' : ∀ e ∈ sortTriplets es, (NZ.toEnt e).row < rows := fun e he =>
    hrow _ (hp.mem_iff.1 (List.mem_map_of_mem he))
  simp only [Bool.false_eq_true, if_false] at h3
  rw [csrBuild_spec M M _ rows columns (by rw [length_sortTriplets]; exact hnnz) hrows hrow'] at h3
  cases h3
  have R := csrOf_rep M (sortTriplets es) rows columns hrow' (sortTriplets_sorted es)
  have hc := spmvCsrSerial_cols R h2
  rw [truncCols_eq (fun e he => (hidx e (hp.mem_iff.1 he)).2)] at hc
  have hin : InRange (ents es) rows columns := fun e he => ⟨hrow e he, hc e (hp.mem_iff.2 he)⟩
  refine ⟨hin, ?_⟩
  obtain ⟨A, es', g1, -, g2⟩ := C01_csr_spmv M rows columns es hnnz hrows hcols hin columns rows (Nat.le_refl _) (Nat.le_refl _) x y
  rw [g1, ok_bind] at h
  rw [g2] at h
  cases h
  rfl

/-! ### CSR2 -/

/-- **C85** for CSR2. -/
theorem C85_csr2 [Add T] [Mul T] (M rows columns : Nat) (es : List ε) (hnnz : es.length < M) (hrows : rows + 1 < M)
    (hidx : ∀ e ∈ ents es, e.row + 1 < M) (x y : Nat → T) (y' : Buf T)
    (h : (do let r ← cooToCsr2 M es rows columns
             r.1.spmv (Buf.full columns x) (Buf.full rows y)) = .ok y') :
    InRange (ents es) rows columns ∧ y' = Buf.full rows (spmvExact (ents es) x y) := by
  obtain ⟨⟨A, es'⟩, h1, h2⟩ := bind_ok h
  have hp := sortTriplets_perm es true
  have hrow : ∀ e ∈ es, (NZ.toEnt e).row < rows := by
    have h3 := h1
    unfold cooToCsr2 at h3
    simp only [Bool.false_eq_true, if_false] at h3
    obtain ⟨s, h4, -⟩ := bind_ok h3
    have hlen : (Buf.filled (addM M rows 1) (0 : Nat)).len = rows + 1 := addM_eq hrows
    have h5 := forLoop_each (fun _ (s : Buf Nat × Buf T × Buf Nat) => s.2.2.len = rows + 1) (by
      intro i s s' _ _ hs hf
      obtain ⟨e, -, hf⟩ := bind_ok hf
      obtain ⟨ci, -, hf⟩ := bind_ok hf
      obtain ⟨v, -, hf⟩ := bind_ok hf
      obtain ⟨rp, h4, hf⟩ := bind_ok hf
      cases hf
      exact (incr_lt h4).2.trans hs) hlen h4
    intro e he
    obtain ⟨i, hi, rfl⟩ := List.getElem_of_mem (hp.mem_iff.2 he)
    obtain ⟨u, u', hu, hf⟩ := h5 i (Nat.zero_le _) hi
    rw [rd_ok hi, ok_bind] at hf
    obtain ⟨ci, -, hf⟩ := bind_ok hf
    obtain ⟨v, -, hf⟩ := bind_ok hf
    obtain ⟨rp, h4, hf⟩ := bind_ok hf
    have := (incr_lt h4).1
    rw [addM_eq (hidx _ (List.mem_map_of_mem he))] at this
    omega
  rw [cooToCsr2_spec M es rows columns false hnnz hrows hrow] at h1
  cases h1
  simp only [Bool.false_eq_true, if_false] at h2
  have hs : (ents (sortTriplets es)).Pairwise (fun a b => a.row ≤ b.row) := by
    unfold ents
    rw [List.pairwise_map]
    exact sortTriplets_sorted es
  have hin : InRange (ents es) rows columns := by
    intro e he
    have hr : e.row < rows := by
      obtain ⟨a, ha, rfl⟩ := List.mem_map.1 he
      exact hrow a ha
    refine ⟨hr, ?_⟩
    obtain ⟨j, hj, rfl⟩ := List.getElem_of_mem ((ents_perm hp).mem_iff.2 he)
    have h3 := forLoop_each (fun _ _ => True) (fun _ _ _ _ _ _ _ => trivial) trivial h2
    obtain ⟨u, u', -, hf⟩ := h3 _ (Nat.zero_le _) hr
    unfold Csr2.spmvRow at hf
    rw [csr2Of_rp _ (by omega), ok_bind, csr2Of_rp _ (by omega), ok_bind] at hf
    obtain ⟨yi, -, hf⟩ := bind_ok hf
    obtain ⟨res, hf, -⟩ := bind_ok hf
    have h4 := forLoop_each (fun _ _ => True) (fun _ _ _ _ _ _ _ => trivial) trivial hf
    have g1 := (getElem_lt_iff _ (·.row) hs ((ents (sortTriplets es))[j].row + 1) j hj).1 (by omega)
    have g2 := mt (getElem_lt_iff _ (·.row) hs (ents (sortTriplets es))[j].row j hj).2 (by omega)
    obtain ⟨u, u', -, hf⟩ := h4 j (by omega) g1
    unfold csr2Inner at hf
    obtain ⟨vj, -, hf⟩ := bind_ok hf
    obtain ⟨c, hc, hf⟩ := bind_ok hf
    obtain ⟨xc, hx, -⟩ := bind_ok hf
    have hj' : j < (sortTriplets es).length := by simpa [ents] using hj
    have : c = (ents (sortTriplets es))[j].col := by
      unfold csr2Of at hc
      rw [Buf.get_ok (a := (ents (sortTriplets es))[j].col) (by exact hj') (by simp [ents, hj'])] at hc
      cases hc
      rfl
    rw [← this]
    exact Buf.get_lt hx
  refine ⟨hin, ?_⟩
  obtain ⟨A, es', g1, g2, -⟩ := C02_csr2_spmv M rows columns es hnnz hrows hin columns rows (Nat.le_refl _) (Nat.le_refl _) x y
  rw [g1, ok_bind] at h
  rw [g2] at h
  cases h
  rfl

/-! ### COO -/

/-- **C85** for the product with a COO matrix. -/
theorem C85_coo [Add T] [Mul T] (rows columns : Nat) (es : List ε) (x y : Nat → T) (y' : Buf T)
    (h : spmvCooArray (Buf.ofList es) es.length (Buf.full columns x) 0 (Buf.full rows y) 0 = .ok y') :
    InRange (ents es) rows columns ∧ y' = Buf.full rows (spmvInOrder (ents es) x y) := by
  have h2 := forLoop_each (fun _ (y : Buf T) => y.len = rows) (by
    intro i s s' _ _ hs hf
    obtain ⟨e, -, hf⟩ := bind_ok hf
    exact (macc_lt hf).2.2.trans hs) rfl h
  have hin : InRange (ents es) rows columns := by
    intro e he
    obtain ⟨i, hi, rfl⟩ := List.getElem_of_mem he
    have hi' : i < es.length := by simpa [ents] using hi
    obtain ⟨u, u', hu, hf⟩ := h2 i (Nat.zero_le _) hi'
    rw [Buf.get_ok (a := es[i]) (by exact hi') (by simp [Buf.ofList, hi']), ok_bind] at hf
    have := macc_lt hf
    simp only [ents, List.getElem_map]
    refine ⟨?_, ?_⟩
    · have := this.1; omega
    · have := this.2.1; simpa using this
  refine ⟨hin, ?_⟩
  rw [C04_coo_array_spmv rows columns es hin x y] at h
  cases h
  rfl

/-! ### CSWR -/

/-- **C85** for CSWR.  Only with a width of 1 the largest row number is left out. -/
theorem C85_cswr [Add T] [Mul T] (M S rows columns width : Nat) (es : List ε) (hw : 0 < width) (hwS : width ≤ S)
    (hnnz : es.length < M) (hrows : rows + 2 * width ≤ M) (hidx : ∀ e ∈ ents es, e.row < M ∧ (width = 1 → e.row + 1 < M)) (x y : Nat → T) (y' : Buf T)
    (h : (do let r ← cooToCswr M S es rows columns width
             r.1.spmv M (Buf.full columns x) (Buf.full rows y)) = .ok y') :
    InRange (ents es) rows columns ∧ y' = Buf.full rows (spmvExact (ents es) x y) := by
  obtain ⟨⟨A, es'⟩, h1, h2⟩ := bind_ok h
  have hp : (sortTripletsWide width es).Perm es := List.mergeSort_perm _ _
  have hdm := Nat.div_add_mod (rows + width - 1) width
  have hnw : (rows + width - 1) / width ≤ rows := by
    rw [Nat.div_le_iff_le_mul_add_pred hw]
    have : rows ≤ width * rows := Nat.le_mul_of_pos_left rows hw
    omega
  have hrow : ∀ e ∈ ents es, e.row / width < (rows + width - 1) / width := by
    have h3 := h1
    unfold cooToCswr at h3
    rw [addM_eq (by omega), subM_eq (by omega) (by omega), cdiv_ok hw, ok_bind] at h3
    simp only at h3
    obtain ⟨s, h4, -⟩ := bind_ok h3
    have hlen : (Buf.filled (addM M ((rows + width - 1) / width) 1) (0 : Nat)).len = (rows + width - 1) / width + 1 :=
      addM_eq (by omega)
    have h5 := forLoop_each (fun _ (s : Buf Nat × Buf Nat × Buf Nat × Buf T) => s.1.len = (rows + width - 1) / width + 1) (by
      intro i s s' _ _ hs hf
      obtain ⟨e, -, hf⟩ := bind_ok hf
      obtain ⟨wr, -, hf⟩ := bind_ok hf
      obtain ⟨wp, h4, hf⟩ := bind_ok hf
      obtain ⟨lr, -, hf⟩ := bind_ok hf
      obtain ⟨r, -, hf⟩ := bind_ok hf
      obtain ⟨c, -, hf⟩ := bind_ok hf
      obtain ⟨v, -, hf⟩ := bind_ok hf
      obtain ⟨ri, -, hf⟩ := bind_ok hf
      obtain ⟨u, -, hf⟩ := bind_ok hf
      cases hf
      exact (incr_lt h4).2.trans hs) hlen h4
    intro e he
    obtain ⟨a, ha, rfl⟩ := List.mem_map.1 he
    obtain ⟨i, hi, rfl⟩ := List.getElem_of_mem (hp.mem_iff.2 ha)
    obtain ⟨u, u', hu, hf⟩ := h5 i (Nat.zero_le _) hi
    unfold cswrFillStep at hf
    rw [rd_ok hi, ok_bind, cdiv_ok hw, ok_bind] at hf
    obtain ⟨wp, h4, hf⟩ := bind_ok hf
    have := (incr_lt h4).1
    have hd := Nat.div_le_self (NZ.toEnt (sortTripletsWide width es)[i]).row width
    have hsucc : (NZ.toEnt (sortTripletsWide width es)[i]).row / width + 1 < M := by
      obtain ⟨i1, i2⟩ := hidx _ he
      by_cases h1 : width = 1
      · have := i2 h1; omega
      · have := Nat.div_le_div_left (a := (NZ.toEnt (sortTripletsWide width es)[i]).row) (show 2 ≤ width by omega) (by omega)
        omega
    rw [addM_eq hsucc] at this
    omega
  rw [cooToCswr_wide M S es rows columns width hw hnnz (by omega) hrow] at h1
  cases h1
  simp only at h2
  have hin : InRange (ents es) rows columns := by
    intro e he
    obtain ⟨a, ha, rfl⟩ := List.mem_map.1 he
    obtain ⟨j, hj, rfl⟩ := List.getElem_of_mem (hp.mem_iff.2 ha)
    have hr := hrow _ he
    set L := sortTripletsWide width es with hL
    have h3 := forLoop_each (fun _ (y : Buf T) => y.len = rows) (by
      intro i s s' _ _ hs hf
      obtain ⟨st, -, hf⟩ := bind_ok hf
      obtain ⟨en, -, hf⟩ := bind_ok hf
      exact forLoop_end (fun y : Buf T => y.len = rows) (fun _ _ _ hs hf => by
        obtain ⟨r, -, hf⟩ := bind_ok hf
        obtain ⟨v, -, hf⟩ := bind_ok hf
        obtain ⟨c, -, hf⟩ := bind_ok hf
        exact (macc_lt hf).2.2.trans hs) hs hf) rfl h2
    obtain ⟨u, u', hu, hf⟩ := h3 _ (Nat.zero_le _) hr
    unfold Cswr.spmvRow at hf
    simp only [cswrOf] at hf
    rw [Buf.get_full (by omega), ok_bind, Buf.get_full (by omega), ok_bind, if_pos (by omega), if_pos (by omega)] at hf
    have hs := sortWide_sorted width es
    rw [← hL] at hs
    have g1 := (getElem_lt_iff L (fun e => (NZ.toEnt e).row / width) hs ((NZ.toEnt L[j]).row / width + 1) j hj).1
      (Nat.lt_succ_self _)
    have g2 := mt (getElem_lt_iff L (fun e => (NZ.toEnt e).row / width) hs ((NZ.toEnt L[j]).row / width) j hj).2
      (Nat.lt_irrefl _)
    set a := L.countP (fun e => decide ((NZ.toEnt e).row / width < (NZ.toEnt L[j]).row / width))
    set b := L.countP (fun e => decide ((NZ.toEnt e).row / width < (NZ.toEnt L[j]).row / width + 1))
    have hbl : b ≤ L.length := List.countP_le_length
    have hLl : L.length = es.length := hp.length_eq
    have hwi : width * ((NZ.toEnt L[j]).row / width) < M :=
      Nat.lt_of_le_of_lt (Nat.mul_div_le _ _) (hidx _ he).1
    rw [subM_eq (by omega) (by omega), mulM_eq hwi] at hf
    have h4 := forLoop_each (fun _ (y : Buf T) => y.len = rows) (fun _ _ _ _ _ hs hf => by
        obtain ⟨r, -, hf⟩ := bind_ok hf
        obtain ⟨v, -, hf⟩ := bind_ok hf
        obtain ⟨c, -, hf⟩ := bind_ok hf
        exact (macc_lt hf).2.2.trans hs) hu hf
    obtain ⟨w, w', hw', hf⟩ := h4 (j - a) (Nat.zero_le _) (by omega)
    rw [show a + (j - a) = j by omega] at hf
    rw [Buf.get_ok (a := (NZ.toEnt L[j]).row % width % S) (by exact hj) (by simp [hj]), ok_bind,
      Buf.get_ok (a := (NZ.toEnt L[j]).val) (by exact hj) (by simp [hj]), ok_bind,
      Buf.get_ok (a := (NZ.toEnt L[j]).col) (by exact hj) (by simp [hj]), ok_bind] at hf
    have hm := macc_lt hf
    have hmod := Nat.mod_lt (NZ.toEnt L[j]).row hw
    rw [Nat.mod_eq_of_lt (a := (NZ.toEnt L[j]).row % width) (by omega), Nat.div_add_mod] at hm
    refine ⟨Nat.lt_of_lt_of_le hm.1 (Nat.le_of_eq hw'), ?_⟩
    have := hm.2.1
    simpa using this
  refine ⟨hin, ?_⟩
  obtain ⟨A, es', g1, -, -, g2⟩ := C07_cswr_spmv M S rows columns width es hw hwS hnnz (by omega) hin x y
  rw [g1, ok_bind] at h
  rw [g2] at h
  cases h
  rfl

end

/-! ### Blocked formats -/

/-- The range assertions of this block let nothing through but what is `P`. -/
def GuardsP (M : Nat) (P : Nat → Nat → Prop) (c : Cur) : Prop := ∀ row col, assertInBlock M c row col = .ok () → P row col

/-- The range assertions of this block let nothing through that is not inside `rows` by `columns`. -/
abbrev Guards (M rows columns : Nat) (c : Cur) : Prop := GuardsP M (fun row col => row < rows ∧ col < columns) c

theorem cassert_inv {b : Bool} {u : Unit} (h : cassert b = .ok u) : b = true := by
  cases b
  · cases h
  · rfl

theorem assertInBlock_inv {M : Nat} {c : Cur} {row col : Nat} (h : assertInBlock M c row col = .ok ()) :
    c.brOff ≤ row ∧ row < addM M c.brOff c.brSize ∧ c.bcOff ≤ col ∧ col < addM M c.bcOff c.bcSize := by
  unfold assertInBlock at h
  obtain ⟨_, h1, h⟩ := bind_ok h
  obtain ⟨_, h2, h⟩ := bind_ok h
  obtain ⟨_, h3, h4⟩ := bind_ok h
  exact ⟨of_decide_eq_true (cassert_inv h1), of_decide_eq_true (cassert_inv h2), of_decide_eq_true (cassert_inv h3),
    of_decide_eq_true (cassert_inv h4)⟩

theorem rd_lt {α : Type} {l : List α} {i : Nat} {a : α} (h : rd l i = .ok a) : l[i]? = some a := by
  unfold rd at h
  cases hl : l[i]? with
  | none => rw [hl] at h; cases h
  | some b => rw [hl] at h; cases h; rfl

theorem cdiv_inv {a b q : Nat} (h : cdiv a b = .ok q) : q = a / b ∧ 0 < b := by
  unfold cdiv at h
  by_cases hb : b = 0
  · rw [if_pos hb] at h; cases h
  · rw [if_neg hb] at h; cases h; exact ⟨rfl, Nat.pos_of_ne_zero hb⟩

theorem cmod_inv {a b q : Nat} (h : cmod a b = .ok q) : q = a % b ∧ 0 < b := by
  unfold cmod at h
  by_cases hb : b = 0
  · rw [if_pos hb] at h; cases h
  · rw [if_neg hb] at h; cases h; exact ⟨rfl, Nat.pos_of_ne_zero hb⟩

theorem part_end {M n total b lo hi : Nat} {off : List Nat} (P : Partition off n total) (hn : n + 1 < M) (ht : total < M)
    (h1 : rd off b = .ok lo) (h2 : rd off (addM M b 1) = .ok hi) : addM M lo (subM M hi lo) ≤ total := by
  have hl := P.len
  have hb : b < off.length := (List.getElem?_eq_some_iff.1 (rd_lt h1)).1
  rw [addM_eq (by omega)] at h2
  have hb2 : b + 1 < off.length := (List.getElem?_eq_some_iff.1 (rd_lt h2)).1
  rw [P.rd_ok b (by omega)] at h1
  rw [P.rd_ok (b + 1) (by omega)] at h2
  cases h1
  cases h2
  have hm := P.mono (show b ≤ b + 1 by omega) (by omega)
  have ht2 := P.le_total (i := b + 1) (by omega)
  rw [subM_eq (by omega) hm, addM_eq (by omega)]
  omega

theorem blockCoords_guards {M rows columns : Nat} {offR offC : List Nat} {blockrows blockcols b : Nat}
    (PR : Partition offR blockrows rows) (PC : Partition offC blockcols columns) (hR : blockrows + 1 < M) (hC : blockcols + 1 < M)
    (hrows : rows < M) (hcols : columns < M) {c : Nat × Nat × Cur} (h : blockCoords M offR offC blockcols b = .ok c) :
    Guards M rows columns c.2.2 := by
  unfold blockCoords at h
  obtain ⟨br, -, h⟩ := bind_ok h
  obtain ⟨bc, -, h⟩ := bind_ok h
  obtain ⟨r0, h1, h⟩ := bind_ok h
  obtain ⟨c0, h2, h⟩ := bind_ok h
  obtain ⟨r1, h3, h⟩ := bind_ok h
  obtain ⟨c1, h4, h⟩ := bind_ok h
  cases h
  intro row col ha
  obtain ⟨-, a1, -, a2⟩ := assertInBlock_inv ha
  exact ⟨Nat.lt_of_lt_of_le a1 (part_end PR hR hrows h1 h3), Nat.lt_of_lt_of_le a2 (part_end PC hC hcols h2 h4)⟩

/-- The scan of the CSBR constructors ends well only if each element passed the assertions of a block. -/
theorem scan_guards {σ : Type} {M : Nat} {P : Nat → Nat → Prop} {es : List (Element T)} {blk : Nat → C Nat}
    {newBlock : Nat → Nat → Nat → σ → C σ} {element : Nat → Nat → σ → C σ} (I : σ → Prop) (cur : σ → Option Cur)
    (hn : ∀ i bi b s s', I s → newBlock i bi b s = .ok s' → I s' ∧ ∃ c, cur s' = some c ∧ GuardsP M P c)
    (he : ∀ i bi s s', I s → element i bi s = .ok s' → I s' ∧ ∃ e c, rd es i = .ok e ∧ cur s = some c ∧
      assertInBlock M c e.row e.col = .ok () ∧ cur s' = cur s)
    {s t : Scan σ} (hI : I s.st) (h0 : cur s.st = none) (h : forLoop 0 es.length s (scanStep M blk newBlock element) = .ok t) :
    ∀ e ∈ ents es, P e.row e.col := by
  have key : ∀ i (s s' : Scan σ), (I s.st ∧ ∀ c, cur s.st = some c → GuardsP M P c) →
      scanStep M blk newBlock element i s = .ok s' →
      (I s'.st ∧ ∀ c, cur s'.st = some c → GuardsP M P c) ∧ ∃ e, rd es i = .ok e ∧ P e.row e.col := by
    intro i s s' hs hf
    unfold scanStep at hf
    obtain ⟨b, -, hf⟩ := bind_ok hf
    obtain ⟨s1, st, hs1, h2, h3⟩ : ∃ (s1 : Scan σ) (st : σ), (I s1.st ∧ ∀ c, cur s1.st = some c → GuardsP M P c) ∧
        element i s1.blockIndex s1.st = .ok st ∧ s'.st = st := by
      simp only at hf
      split at hf
      · obtain ⟨st1, h3, h1⟩ := bind_ok hf
        rw [ok_bind] at h1
        obtain ⟨st, h4, h5⟩ := bind_ok h1
        cases h5
        refine ⟨_, st, ?_, h4, rfl⟩
        obtain ⟨g0, c, g1, g2⟩ := hn _ _ _ _ _ hs.1 h3
        refine ⟨g0, ?_⟩
        intro c' hc'
        simp only at hc'
        rw [g1] at hc'
        cases hc'
        exact g2
      · rw [ok_bind] at hf
        obtain ⟨st, h4, h5⟩ := bind_ok hf
        cases h5
        exact ⟨s, st, hs, h4, rfl⟩
    obtain ⟨g0, e, c, g1, g2, g3, g4⟩ := he _ _ _ _ hs1.1 h2
    exact ⟨⟨h3 ▸ g0, fun c' hc' => hs1.2 c' (by rw [h3, g4] at hc'; exact hc')⟩, e, g1, hs1.2 c g2 _ _ g3⟩
  have h2 := forLoop_each (fun _ (s : Scan σ) => I s.st ∧ ∀ c, cur s.st = some c → GuardsP M P c)
    (fun i s s' _ _ hs hf => (key i s s' hs hf).1) ⟨hI, fun c hc => by rw [h0] at hc; cases hc⟩ h
  intro e hm
  obtain ⟨a, ha, rfl⟩ := List.mem_map.1 hm
  obtain ⟨i, hi, rfl⟩ := List.getElem_of_mem ha
  obtain ⟨u, u', hu, hf⟩ := h2 i (Nat.zero_le _) hi
  obtain ⟨e, g1, g2⟩ := (key i u u' hu hf).2
  rw [rd_ok hi] at g1
  cases g1
  exact g2

theorem needCur_inv {o : Option Cur} {c : Cur} (h : needCur o = .ok c) : o = some c := by
  cases o with
  | none => cases h
  | some d => cases h; rfl

theorem csbrBuild_guards [Add T] [Mul T] {M workers rows columns : Nat} {es : List (Element T)}
    {offR : List Nat} {blockrows : Nat} {offC : List Nat} {blockcols : Nat}
    {P : Nat → Nat → Prop} (hP : ∀ b c, blockCoords M offR offC blockcols b = .ok c → GuardsP M P c.2.2) {A : Csbr T}
    (h : csbrBuild M workers es rows columns offR blockrows offC blockcols = .ok A) : ∀ e ∈ ents es, P e.row e.col := by
  unfold csbrBuild at h
  obtain ⟨n, -, h⟩ := bind_ok h
  obtain ⟨_, -, h⟩ := bind_ok h
  obtain ⟨s, h1, -⟩ := bind_ok h
  refine scan_guards (fun _ => True) CsbrFill.cur ?_ ?_ trivial rfl h1
  · intro i bi b s s' _ hf
    unfold csbrNewBlock at hf
    obtain ⟨c, g1, hf⟩ := bind_ok hf
    obtain ⟨_, -, hf⟩ := bind_ok hf
    obtain ⟨_, -, hf⟩ := bind_ok hf
    obtain ⟨_, -, hf⟩ := bind_ok hf
    cases hf
    exact ⟨trivial, _, rfl, hP _ _ g1⟩
  · intro i bi s s' _ hf
    unfold csbrElement at hf
    obtain ⟨e, g1, hf⟩ := bind_ok hf
    obtain ⟨c, g2, hf⟩ := bind_ok hf
    obtain ⟨_, g3, hf⟩ := bind_ok hf
    obtain ⟨_, -, hf⟩ := bind_ok hf
    obtain ⟨_, -, hf⟩ := bind_ok hf
    obtain ⟨_, -, hf⟩ := bind_ok hf
    obtain ⟨_, -, hf⟩ := bind_ok hf
    obtain ⟨_, -, hf⟩ := bind_ok hf
    cases hf
    exact ⟨trivial, e, c, g1, needCur_inv g2, g3, rfl⟩

theorem csbrBuild_inRange [Add T] [Mul T] {M workers rows columns : Nat} {es : List (Element T)}
    {offR : List Nat} {blockrows : Nat} {offC : List Nat} {blockcols : Nat}
    (PR : Partition offR blockrows rows) (PC : Partition offC blockcols columns) (hR : blockrows + 1 < M) (hC : blockcols + 1 < M)
    (hrows : rows < M) (hcols : columns < M) {A : Csbr T}
    (h : csbrBuild M workers es rows columns offR blockrows offC blockcols = .ok A) : InRange (ents es) rows columns :=
  csbrBuild_guards (fun _ _ => blockCoords_guards PR PC hR hC hrows hcols) h

theorem csbr2Build_guards {M rows columns : Nat} {es : List (Element T)}
    {offR : List Nat} {blockrows : Nat} {offC : List Nat} {blockcols : Nat}
    {P : Nat → Nat → Prop} (hP : ∀ b c, blockCoords M offR offC blockcols b = .ok c → GuardsP M P c.2.2) {A : Csbr2 T}
    (h : csbr2Build M es rows columns offR blockrows offC blockcols = .ok A) : ∀ e ∈ ents es, P e.row e.col := by
  unfold csbr2Build at h
  obtain ⟨n, -, h⟩ := bind_ok h
  obtain ⟨_, -, h⟩ := bind_ok h
  obtain ⟨s, h1, -⟩ := bind_ok h
  refine scan_guards (fun _ => True) Csbr2Fill.cur ?_ ?_ trivial rfl h1
  · intro i bi b s s' _ hf
    unfold csbr2NewBlock at hf
    obtain ⟨c, g1, hf⟩ := bind_ok hf
    obtain ⟨_, -, hf⟩ := bind_ok hf
    obtain ⟨_, -, hf⟩ := bind_ok hf
    cases hf
    exact ⟨trivial, _, rfl, hP _ _ g1⟩
  · intro i bi s s' _ hf
    unfold csbr2Element at hf
    obtain ⟨e, g1, hf⟩ := bind_ok hf
    obtain ⟨c, g2, hf⟩ := bind_ok hf
    obtain ⟨_, g3, hf⟩ := bind_ok hf
    obtain ⟨_, -, hf⟩ := bind_ok hf
    obtain ⟨_, -, hf⟩ := bind_ok hf
    obtain ⟨_, -, hf⟩ := bind_ok hf
    obtain ⟨_, -, hf⟩ := bind_ok hf
    obtain ⟨_, -, hf⟩ := bind_ok hf
    cases hf
    exact ⟨trivial, e, c, g1, needCur_inv g2, g3, rfl⟩

theorem csbr2Build_inRange {M rows columns : Nat} {es : List (Element T)}
    {offR : List Nat} {blockrows : Nat} {offC : List Nat} {blockcols : Nat}
    (PR : Partition offR blockrows rows) (PC : Partition offC blockcols columns) (hR : blockrows + 1 < M) (hC : blockcols + 1 < M)
    (hrows : rows < M) (hcols : columns < M) {A : Csbr2 T}
    (h : csbr2Build M es rows columns offR blockrows offC blockcols = .ok A) : InRange (ents es) rows columns :=
  csbr2Build_guards (fun _ _ => blockCoords_guards PR PC hR hC hrows hcols) h

theorem mapM_sameEnts {f : Element T → C (Element T)} (hf : ∀ e e', f e = .ok e' → e'.row = e.row ∧ e'.col = e.col ∧ e'.val = e.val)
    {es es' : List (Element T)} (h : es.mapM f = .ok es') : ents es' = ents es := by
  induction es generalizing es' with
  | nil => cases h; rfl
  | cons a l ih =>
    rw [List.mapM_cons] at h
    obtain ⟨a', h1, h⟩ := bind_ok h
    obtain ⟨l', h2, h⟩ := bind_ok h
    cases h
    obtain ⟨g1, g2, g3⟩ := hf _ _ h1
    simp only [ents, List.map_cons] at ih ⊢
    rw [ih h2]
    congr 1
    simp only [NZ.toEnt, g1, g2, g3]

theorem calculateBlockId_ents {M : Nat} {es es' : List (Element T)} {offR : List Nat} {blockrows : Nat} {offC : List Nat}
    {blockcols : Nat} (h : calculateBlockId M es offR blockrows offC blockcols = .ok es') : ents es' = ents es :=
  mapM_sameEnts (fun e e' hf => by
    obtain ⟨_, -, hf⟩ := bind_ok hf
    obtain ⟨_, -, hf⟩ := bind_ok hf
    cases hf
    exact ⟨rfl, rfl, rfl⟩) h

theorem calculateBlockIdConst_ents {M : Nat} {es es' : List (Element T)} {a b c : Nat}
    (h : calculateBlockIdConst M es a b c = .ok es') : ents es' = ents es :=
  mapM_sameEnts (fun e e' hf => by
    obtain ⟨_, -, hf⟩ := bind_ok hf
    obtain ⟨_, -, hf⟩ := bind_ok hf
    cases hf
    exact ⟨rfl, rfl, rfl⟩) h

theorem InRange.sorted {es es' : List (Element T)} {rows columns : Nat} (h : InRange (ents (sortElementsBlocks es')) rows columns)
    (he : ents es' = ents es) : InRange (ents es) rows columns := by
  intro e hm
  rw [← he] at hm
  exact h e ((ents_perm (List.mergeSort_perm _ _)).mem_iff.2 hm)

/-- **C85** for CSBR: whatever coordinates the array holds, if the conversion comes to an end then every entry was inside the matrix. -/
theorem C85_csbr [Add T] [Mul T] (M workers rows columns : Nat) (es : List (Element T))
    (offR : List Nat) (blockrows : Nat) (offC : List Nat) (blockcols : Nat)
    (PR : Partition offR blockrows rows) (PC : Partition offC blockcols columns) (hR : blockrows + 1 < M) (hC : blockcols + 1 < M)
    (hrows : rows < M) (hcols : columns < M) (r : Csbr T × List (Element T))
    (h : cooToCsbr M workers es rows columns offR blockrows offC blockcols = .ok r) : InRange (ents es) rows columns := by
  obtain ⟨es1, h1, h⟩ := bind_ok h
  obtain ⟨A, h2, -⟩ := bind_ok h
  exact (csbrBuild_inRange PR PC hR hC hrows hcols h2).sorted (calculateBlockId_ents h1)

/-- **C85** for CSBR2. -/
theorem C85_csbr2 (M rows columns : Nat) (es : List (Element T))
    (offR : List Nat) (blockrows : Nat) (offC : List Nat) (blockcols : Nat)
    (PR : Partition offR blockrows rows) (PC : Partition offC blockcols columns) (hR : blockrows + 1 < M) (hC : blockcols + 1 < M)
    (hrows : rows < M) (hcols : columns < M) (r : Csbr2 T × List (Element T))
    (h : cooToCsbr2 M es rows columns offR blockrows offC blockcols = .ok r) : InRange (ents es) rows columns := by
  obtain ⟨es1, h1, h⟩ := bind_ok h
  obtain ⟨A, h2, -⟩ := bind_ok h
  exact (csbr2Build_inRange PR PC hR hC hrows hcols h2).sorted (calculateBlockId_ents h1)

/-- **C85** for CSBR3: its assertions use the size of a full block also for the last block row and column, so what comes through is
inside the matrix rounded up to whole blocks. -/
theorem C85_csbr3 (M S rows columns bs : Nat) (es : List (Element T)) (hrows : rows + bs < M) (hcols : columns + bs < M)
    (r : Csbr3 T × List (Element T)) (h : cooToCsbr3 M S es rows columns bs = .ok r) :
    InRange (ents es) ((rows + bs - 1) / bs * bs) ((columns + bs - 1) / bs * bs) := by
  unfold cooToCsbr3 at h
  obtain ⟨br, h1, h⟩ := bind_ok h
  have hbs := (cdiv_inv h1).2
  rw [addM_eq hrows, subM_eq (by omega) (by omega)] at h1
  obtain ⟨rfl, -⟩ := cdiv_inv h1
  rw [addM_eq hcols, subM_eq (by omega) (by omega), cdiv_ok hbs, ok_bind] at h
  obtain ⟨es1, h3, h⟩ := bind_ok h
  obtain ⟨n, -, h⟩ := bind_ok h
  obtain ⟨bp, -, h⟩ := bind_ok h
  obtain ⟨s, h4, -⟩ := bind_ok h
  have e1 := Nat.div_mul_le_self (rows + bs - 1) bs
  have e2 := Nat.div_mul_le_self (columns + bs - 1) bs
  have e3 := Nat.le_mul_of_pos_right ((rows + bs - 1) / bs) hbs
  have hq : (rows + bs - 1) / bs + 1 < M := by omega
  refine InRange.sorted (scan_guards (M := M)
    (P := fun row col => row < (rows + bs - 1) / bs * bs ∧ col < (columns + bs - 1) / bs * bs) (fun s => s.blockrowPtr.len = (rows + bs - 1) / bs + 1)
    Csbr3Fill.cur ?_ ?_ (addM_eq hq) rfl h4) (calculateBlockIdConst_ents h3)
  · intro i bi b s s' hI hf
    unfold csbr3NewBlock at hf
    obtain ⟨br, g1, hf⟩ := bind_ok hf
    obtain ⟨bc, g2, hf⟩ := bind_ok hf
    obtain ⟨_, -, hf⟩ := bind_ok hf
    obtain ⟨_, -, hf⟩ := bind_ok hf
    obtain ⟨_, g3, hf⟩ := bind_ok hf
    cases hf
    refine ⟨(incr_lt g3).2.trans hI, _, rfl, fun row col ha => ?_⟩
    obtain ⟨-, a1, -, a2⟩ := assertInBlock_inv ha
    obtain ⟨rfl, hbc⟩ := cmod_inv g2
    have g4 := (incr_lt g3).1
    simp only at g4 a1 a2
    rw [hI] at g4
    refine ⟨Nat.lt_of_lt_of_le a1 ?_, Nat.lt_of_lt_of_le a2 ?_⟩
    · have h1 : addM M (mulM M br bs) bs = (addM M br 1 * bs) % M := by
        unfold addM mulM
        rw [Nat.mod_add_mod, Nat.mod_mul_mod, Nat.add_mul, Nat.one_mul]
      rw [h1]
      exact Nat.le_trans (Nat.mod_le _ _) (Nat.mul_le_mul_right _ (by omega))
    · have h2 := Nat.mod_lt b hbc
      have h3 : (b % ((columns + bs - 1) / bs) + 1) * bs ≤ (columns + bs - 1) / bs * bs := Nat.mul_le_mul_right _ h2
      rw [Nat.add_mul, Nat.one_mul] at h3
      have h4 := Nat.mod_le (b % ((columns + bs - 1) / bs) * bs) M
      exact Nat.le_trans (Nat.mod_le _ _) (by unfold mulM; omega)
  · intro i bi s s' hI hf
    unfold csbr3Element at hf
    obtain ⟨e, g1, hf⟩ := bind_ok hf
    obtain ⟨c, g2, hf⟩ := bind_ok hf
    obtain ⟨_, g3, hf⟩ := bind_ok hf
    obtain ⟨_, -, hf⟩ := bind_ok hf
    obtain ⟨_, -, hf⟩ := bind_ok hf
    obtain ⟨_, -, hf⟩ := bind_ok hf
    cases hf
    exact ⟨hI, e, c, g1, needCur_inv g2, g3, rfl⟩

/-! ### CGBR -/

/-- A while loop that ends well keeps an invariant, and its condition is false at the end. -/
theorem whileLoop_end {σ : Type} {cond : σ → C Bool} {body : σ → C σ} (P : σ → Prop)
    (step : ∀ s s', P s → cond s = .ok true → body s = .ok s' → P s')
    {n : Nat} {s t : σ} (h0 : P s) (h : whileLoop cond body n s = .ok t) : P t ∧ cond t = .ok false := by
  induction n generalizing s with
  | zero => cases h
  | succ n ih =>
    rw [whileLoop] at h
    obtain ⟨c, h1, h⟩ := bind_ok h
    cases c with
    | false =>
      rw [if_neg Bool.false_ne_true] at h
      cases h
      exact ⟨h0, h1⟩
    | true =>
      rw [if_pos rfl] at h
      obtain ⟨s', h2, h⟩ := bind_ok h
      exact ih (step _ _ h0 h1 h2) h

theorem scanEnd_le {M : Nat} {es : List (Element T)} {b i j : Nat} (hM : es.length < M) (hi : i ≤ es.length)
    (h : scanEnd M es b i = .ok j) : i ≤ j ∧ j ≤ es.length := by
  refine (whileLoop_end (fun j => i ≤ j ∧ j ≤ es.length) ?_ ⟨Nat.le_refl _, hi⟩ h).1
  intro s s' hs hc hf
  by_cases hl : s < es.length
  · cases hf
    rw [addM_eq (by omega)]
    omega
  · rw [if_neg hl] at hc
    cases hc

theorem localize_inv {M : Nat} {c : Cur} {es es' : List (Element T)} {i j : Nat} (hj : j ≤ es.length)
    (h : localize M c es i j = .ok es') :
    es'.length = es.length ∧ es'.drop j = es.drop j ∧ ∀ k (hk : k < es.length), i ≤ k → k < j →
      assertInBlock M c es[k].row es[k].col = .ok () := by
  have key : ∀ k (a a' : List (Element T)), i ≤ k → k < j →
      (a.length = es.length ∧ a.drop k = es.drop k) →
      (do let e ← rd a k
          assertInBlock M c e.row e.col
          .ok (a.set k { e with row := subM M e.row c.brOff, col := subM M e.col c.bcOff }) : C (List (Element T))) = .ok a' →
      (a'.length = es.length ∧ a'.drop (k + 1) = es.drop (k + 1)) ∧
      ∀ hk : k < es.length, assertInBlock M c es[k].row es[k].col = .ok () := by
    intro k a a' _ hkj ⟨h1, h2⟩ hf
    have hk : k < a.length := by omega
    rw [rd_ok hk, ok_bind] at hf
    obtain ⟨_, h3, hf⟩ := bind_ok hf
    cases hf
    have he : a[k] = es[k]'(by omega) := by
      have := congrArg (fun l => l[0]?) h2
      simp only [List.getElem?_drop, Nat.add_zero] at this
      rw [List.getElem?_eq_getElem hk, List.getElem?_eq_getElem (by omega)] at this
      exact Option.some.inj this
    refine ⟨⟨by rw [List.length_set]; exact h1, ?_⟩, fun _ => he ▸ h3⟩
    rw [List.drop_set_of_lt (Nat.lt_succ_self k), show k.succ = k + 1 from rfl]
    rw [← List.drop_drop, ← List.drop_drop, h2]
  have h1 := forLoop_each (fun k (a : List (Element T)) => a.length = es.length ∧ a.drop k = es.drop k)
    (fun k a a' hk hkj ha hf => (key k a a' hk hkj ha hf).1) ⟨rfl, rfl⟩ h
  refine ⟨?_, ?_, fun k hk hik hkj => ?_⟩
  · refine forLoop_end (fun a : List (Element T) => a.length = es.length) ?_ rfl h
    intro k a a' ha hf
    obtain ⟨e, -, hf⟩ := bind_ok hf
    obtain ⟨_, -, hf⟩ := bind_ok hf
    cases hf
    rw [List.length_set]
    exact ha
  · by_cases hij : i ≤ j
    · exact (forLoop_final (fun k (a : List (Element T)) => a.length = es.length ∧ a.drop k = es.drop k)
        (fun k a a' hk hkj ha hf => (key k a a' hk hkj ha hf).1) hij ⟨rfl, rfl⟩ h).2
    · unfold localize at h
      rw [forLoop_empty (by omega)] at h
      cases h
      rfl
  · obtain ⟨u, u', hu, hf⟩ := h1 k hik hkj
    exact (key k u u' hik hkj hu hf).2 hk

/-- Building a block keeps the number of elements. -/
def KeepsLength {β : Type} (make : MakeBlock β T) : Prop := ∀ rs cs g r, make rs cs g = .ok r → r.2.2.length = g.length

theorem gbrBuild_guards {β : Type} {M rows columns : Nat} {make : MakeBlock β T} (hmake : KeepsLength make) {es : List (Element T)}
    {offR : List Nat} {blockrows : Nat} {offC : List Nat} {blockcols : Nat}
    {P : Nat → Nat → Prop} (hP : ∀ b c, blockCoords M offR offC blockcols b = .ok c → GuardsP M P c.2.2) (hlen : es.length < M) {r : Gbr β × List (Element T)}
    (h : gbrBuild M make es rows columns offR blockrows offC blockcols = .ok r) : ∀ e ∈ ents es, P e.row e.col := by
  unfold gbrBuild at h
  obtain ⟨n, -, h⟩ := bind_ok h
  obtain ⟨s, h1, -⟩ := bind_ok h
  have h2 := whileLoop_end (fun s : GbrFill β T => s.es.length = es.length ∧ s.es.drop s.i = es.drop s.i ∧
    ∀ k (hk : k < es.length), k < s.i → P es[k].row es[k].col) (by
      intro s s' ⟨a1, a2, a3⟩ hc hf
      have hi : s.i < es.length := by simpa using hc
      unfold gbrStep at hf
      obtain ⟨e, -, hf⟩ := bind_ok hf
      obtain ⟨j, g1, hf⟩ := bind_ok hf
      obtain ⟨c, g2, hf⟩ := bind_ok hf
      obtain ⟨_, -, hf⟩ := bind_ok hf
      obtain ⟨_, -, hf⟩ := bind_ok hf
      obtain ⟨es1, g3, hf⟩ := bind_ok hf
      obtain ⟨r, g4, hf⟩ := bind_ok hf
      obtain ⟨_, -, hf⟩ := bind_ok hf
      obtain ⟨_, -, hf⟩ := bind_ok hf
      obtain ⟨_, -, hf⟩ := bind_ok hf
      obtain ⟨_, -, hf⟩ := bind_ok hf
      cases hf
      rw [addM_eq (by omega)] at g1
      obtain ⟨b1, b2⟩ := scanEnd_le (by omega) (by omega) g1
      obtain ⟨d1, d2, d3⟩ := localize_inv b2 g3
      have d4 := hmake _ _ _ _ g4
      rw [List.length_drop, List.length_take, d1, a1] at d4
      have d5 : (es1.take s.i ++ r.2.2).length = j := by
        rw [List.length_append, List.length_take, d4, d1, a1]
        omega
      have d6 : es.drop j = s.es.drop j := by
        have := congrArg (List.drop (j - s.i)) a2
        rw [List.drop_drop, List.drop_drop, show s.i + (j - s.i) = j by omega] at this
        exact this.symm
      refine ⟨?_, ?_, fun k hk hkj => ?_⟩
      · simp only
        rw [List.length_append, d5, List.length_drop, d1, a1]
        omega
      · simp only
        rw [List.drop_append_of_le_length (by omega), ← d5, List.drop_length, d5, List.nil_append, d2, d6]
      · by_cases hki : k < s.i
        · exact a3 k hk hki
        · have := d3 k (by omega) (by omega) hkj
          have he : s.es[k]'(by omega) = es[k] := by
            have := congrArg (fun l => l[k - s.i]?) a2
            simp only [List.getElem?_drop, show s.i + (k - s.i) = k by omega] at this
            rw [List.getElem?_eq_getElem (by omega), List.getElem?_eq_getElem hk] at this
            exact Option.some.inj this
          rw [he] at this
          exact hP _ _ g2 _ _ this) ⟨rfl, rfl, fun k _ hk => absurd hk (Nat.not_lt_zero _)⟩ h1
  obtain ⟨⟨-, -, h3⟩, h4⟩ := h2
  have h5 : ¬ s.i < es.length := by simpa using h4
  intro e he
  obtain ⟨a, ha, rfl⟩ := List.mem_map.1 he
  obtain ⟨k, hk, rfl⟩ := List.getElem_of_mem ha
  exact h3 k hk (by omega)

theorem gbrBuild_inRange {β : Type} {M rows columns : Nat} {make : MakeBlock β T} (hmake : KeepsLength make) {es : List (Element T)}
    {offR : List Nat} {blockrows : Nat} {offC : List Nat} {blockcols : Nat}
    (PR : Partition offR blockrows rows) (PC : Partition offC blockcols columns) (hR : blockrows + 1 < M) (hC : blockcols + 1 < M)
    (hrows : rows < M) (hcols : columns < M) (hlen : es.length < M) {r : Gbr β × List (Element T)}
    (h : gbrBuild M make es rows columns offR blockrows offC blockcols = .ok r) : InRange (ents es) rows columns :=
  gbrBuild_guards hmake (fun _ _ => blockCoords_guards PR PC hR hC hrows hcols) hlen h

theorem keepsLength_matrixBlock [Zero T] (M S : Nat) (choose : Nat → Nat → Nat → BlockChoice) :
    KeepsLength (cooToMatrixBlock (T := T) M S choose) := by
  intro rs cs g r h
  unfold cooToMatrixBlock at h
  split at h
  · obtain ⟨r, h1, h⟩ := bind_ok h
    cases h
    unfold cooToBlockCoo at h1
    obtain ⟨_, -, h1⟩ := bind_ok h1
    obtain ⟨_, -, h1⟩ := bind_ok h1
    cases h1
    exact (List.mergeSort_perm _ _).length_eq
  · obtain ⟨r, h1, h⟩ := bind_ok h
    cases h
    obtain ⟨_, -, h1⟩ := bind_ok h1
    cases h1
    rfl
  · obtain ⟨r, h1, h⟩ := bind_ok h
    cases h
    rfl

theorem keepsLength_factory [Add T] [Mul T] [Zero T] (M S : Nat) (choose : Nat → Nat → Nat → FactoryChoice) :
    KeepsLength (factoryDefault (T := T) M S choose) := by
  intro rs cs g r h
  unfold factoryDefault at h
  split at h
  · obtain ⟨r, h1, h⟩ := bind_ok h
    cases h
    obtain ⟨_, -, h1⟩ := bind_ok h1
    cases h1
    exact (List.mergeSort_perm _ _).length_eq
  all_goals
    obtain ⟨r, h1, h⟩ := bind_ok h
    cases h
    rfl

/-- **C85** for CGBR. -/
theorem C85_cgbr [Add T] [Mul T] [Zero T] (M S workers rows columns : Nat) (choose : Nat → Nat → Nat → BlockChoice)
    (heavy : Nat → Nat → List Nat → Bool) (es : List (Element T))
    (offR : List Nat) (blockrows : Nat) (offC : List Nat) (blockcols : Nat)
    (PR : Partition offR blockrows rows) (PC : Partition offC blockcols columns) (hR : blockrows + 1 < M) (hC : blockcols + 1 < M)
    (hrows : rows < M) (hcols : columns < M) (hlen : es.length < M) (r : Cgbr T × List (Element T))
    (h : cooToCgbr M S workers choose heavy es rows columns offR blockrows offC blockcols = .ok r) :
    InRange (ents es) rows columns := by
  obtain ⟨es1, h1, h⟩ := bind_ok h
  obtain ⟨_, -, h⟩ := bind_ok h
  obtain ⟨_, -, h⟩ := bind_ok h
  obtain ⟨B, h2, -⟩ := bind_ok h
  have hl : (sortElementsBlocks es1).length < M := by
    have : (sortElementsBlocks es1).length = es1.length := (List.mergeSort_perm _ _).length_eq
    have e := congrArg List.length (calculateBlockId_ents h1)
    simp only [ents, List.length_map] at e
    omega
  exact (gbrBuild_inRange (keepsLength_matrixBlock M S choose) PR PC hR hC hrows hcols hl h2).sorted (calculateBlockId_ents h1)

/-- **C85** for CGBR2, with any factory that leaves the number of elements alone. -/
theorem C85_cgbr2 (M workers rows columns : Nat) (factory : MakeBlock (BlockObj T) T) (hf : KeepsLength factory) (es : List (Element T))
    (offR : List Nat) (blockrows : Nat) (offC : List Nat) (blockcols : Nat)
    (PR : Partition offR blockrows rows) (PC : Partition offC blockcols columns) (hR : blockrows + 1 < M) (hC : blockcols + 1 < M)
    (hrows : rows < M) (hcols : columns < M) (hlen : es.length < M) (r : Cgbr2 T × List (Element T))
    (h : cgbr2Create M workers factory es rows columns offR blockrows offC blockcols = .ok r) :
    InRange (ents es) rows columns := by
  obtain ⟨_, -, h⟩ := bind_ok h
  obtain ⟨es1, h1, h⟩ := bind_ok h
  obtain ⟨B, h2, -⟩ := bind_ok h
  have hl : (sortElementsBlocks es1).length < M := by
    have : (sortElementsBlocks es1).length = es1.length := (List.mergeSort_perm _ _).length_eq
    have e := congrArg List.length (calculateBlockId_ents h1)
    simp only [ents, List.length_map] at e
    omega
  exact (gbrBuild_inRange hf PR PC hR hC hrows hcols hl h2).sorted (calculateBlockId_ents h1)

end Gsb
