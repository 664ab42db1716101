import Verif.Proof.Kernel
/-
Helper lemmas: the CSR arrays represent the entries, the CSR kernels visit them in storage order.
-/
namespace Gsb
variable {ε T : Type} [NZ ε T]

/-- The arrays `rp`, `ci`, `v` (used from index `base` on) hold the row-sorted entries `L`. -/
structure CsrRep (L : List (Ent T)) (base rows : Nat) (rp ci : Buf Nat) (v : Buf T) : Prop where
  rpLen : rows < rp.len
  rpDat : ∀ i, i ≤ rows → rp.dat i = some (L.countP (fun e => decide (e.row < i)))
  ciDat : ∀ j (h : j < L.length), base + j < ci.len ∧ ci.dat (base + j) = some L[j].col
  vDat : ∀ j (h : j < L.length), base + j < v.len ∧ v.dat (base + j) = some L[j].val
  sorted : L.Pairwise (fun a b => a.row ≤ b.row)
  range : ∀ e ∈ L, e.row < rows

/-- Entries with the column stored in a type of `S` values. -/
def truncCols (S : Nat) (L : List (Ent T)) : List (Ent T) := L.map (fun e => ⟨e.row, e.col % S, e.val⟩)

theorem truncCols_eq {S : Nat} {L : List (Ent T)} (h : ∀ e ∈ L, e.col < S) : truncCols S L = L := by
  unfold truncCols
  conv => rhs; rw [← List.map_id L]
  refine List.map_congr_left (fun e he => ?_)
  simp [Nat.mod_eq_of_lt (h e he)]

omit [NZ ε T] in
theorem fill_put {α : Type} {n i : Nat} (l : List ε) (g : ε → α) (a : ε) (hl : l.length = i) (hi : i < n) :
    (Buf.mk n (fun k => (l[k]?).map g)).put i (g a) =
      .ok (Buf.mk n (fun k => ((l ++ [a])[k]?).map g)) := by
  rw [Buf.put_ok hi]
  congr 2; funext k
  subst hl
  by_cases h : k = l.length
  · subst h; simp
  · simp only [h, if_false]
    by_cases h2 : k < l.length
    · rw [List.getElem?_append_left h2]
    · rw [List.getElem?_eq_none (by omega), List.getElem?_eq_none (by simp; omega)]

theorem csrFill_spec (M S : Nat) (es : List ε) (rows : Nat)
    (hM : es.length < M) (hr : rows + 1 < M) (hrow : ∀ e ∈ es, (NZ.toEnt e).row < rows) :
    forLoop 0 es.length
      ((Buf.uninit es.length : Buf Nat), (Buf.uninit es.length : Buf T), Buf.filled (addM M rows 1) 0)
      (csrFillStep M S es) =
    .ok (⟨es.length, fun k => (es[k]?).map (fun e => (NZ.toEnt e).col % S)⟩,
         ⟨es.length, fun k => (es[k]?).map (fun e => (NZ.toEnt e).val)⟩,
         Buf.full (rows + 1) (fun k => es.countP (fun e => (NZ.toEnt e).row + 1 == k))) := by
  refine forLoop_closed' (fun i =>
    ((⟨es.length, fun k => ((es.take i)[k]?).map (fun e => (NZ.toEnt e).col % S)⟩ : Buf Nat),
     (⟨es.length, fun k => ((es.take i)[k]?).map (fun e => (NZ.toEnt e).val)⟩ : Buf T),
     Buf.full (rows + 1) (fun k => (es.take i).countP (fun e => (NZ.toEnt e).row + 1 == k))))
    (Nat.zero_le _) ?_ ?_ ?_
  · simp [Buf.uninit, Buf.filled, Buf.full, addM_eq hr]
  · simp
  · intro i _ hi
    have hlen : (es.take i).length = i := by simp; omega
    have htake : es.take (i + 1) = es.take i ++ [es[i]] := by
      rw [List.take_add_one]; simp [hi]
    have hri : (NZ.toEnt es[i]).row < rows := hrow _ (List.getElem_mem hi)
    unfold csrFillStep
    rw [rd_ok hi, ok_bind]
    simp only
    rw [fill_put (es.take i) (fun e => (NZ.toEnt e).col % S) es[i] hlen hi, ok_bind,
      fill_put (es.take i) (fun e => (NZ.toEnt e).val) es[i] hlen hi, ok_bind,
      addM_eq (by omega),
      incr_count (es.take i) (fun e => (NZ.toEnt e).row) es[i] (by omega) (by omega), ok_bind, htake]

/-- The CSR matrix built from `es`. -/
def csrOf (S : Nat) (es : List ε) (rows columns : Nat) : Csr T where
  val := ⟨es.length, fun k => (es[k]?).map (fun e => (NZ.toEnt e).val)⟩
  colInd := ⟨es.length, fun k => (es[k]?).map (fun e => (NZ.toEnt e).col % S)⟩
  rowPtr := Buf.full (rows + 1) (fun k => if k ≤ rows then es.countP (fun e => decide ((NZ.toEnt e).row < k))
          else es.countP (fun e => (NZ.toEnt e).row + 1 == k))
  rows := rows
  columns := columns

theorem csrBuild_spec (M S : Nat) (es : List ε) (rows columns : Nat)
    (hM : es.length < M) (hr : rows + 1 < M) (hrow : ∀ e ∈ es, (NZ.toEnt e).row < rows) :
    csrBuild M S es rows columns = .ok (csrOf S es rows columns) := by
  unfold csrBuild
  rw [csrFill_spec M S es rows hM hr hrow, ok_bind]
  simp only
  rw [prefixSum_count es (fun e => (NZ.toEnt e).row) rfl hM, ok_bind, Buf.get_full (by omega), ok_bind]
  simp only [Nat.le_refl, if_true]
  rw [countP_lt_all es (fun e => (NZ.toEnt e).row) rows hrow]
  simp [csrOf]

theorem csrOf_rep (S : Nat) (es : List ε) (rows columns : Nat)
    (hrow : ∀ e ∈ es, (NZ.toEnt e).row < rows)
    (hs : es.Pairwise (fun a b => (NZ.toEnt a).row ≤ (NZ.toEnt b).row)) :
    CsrRep (truncCols S (ents es)) 0 rows (csrOf S es rows columns).rowPtr
      (csrOf S es rows columns).colInd (csrOf S es rows columns).val := by
  refine ⟨by simp [csrOf], ?_, ?_, ?_, ?_, ?_⟩
  · intro i hi
    simp only [csrOf, Buf.full_dat, hi, if_true, truncCols, ents, List.countP_map, Function.comp_def]
  · intro j h
    have h' : j < es.length := by simpa [truncCols, ents] using h
    simp [csrOf, truncCols, ents, h']
  · intro j h
    have h' : j < es.length := by simpa [truncCols, ents] using h
    simp [csrOf, truncCols, ents, h']
  · unfold truncCols ents
    rw [List.pairwise_map, List.pairwise_map]
    exact hs
  · intro e he
    simp only [truncCols, ents, List.mem_map] at he
    obtain ⟨a, ⟨b, hb, rfl⟩, rfl⟩ := he
    exact hrow b hb

/-- The inner loop of a CSR kernel over one row. -/
theorem csrInner_slice [Add T] [Mul T] {L : List (Ent T)} {base rows : Nat} {rp ci : Buf Nat} {v : Buf T}
    (R : CsrRep L base rows rp ci v) {nx ny xo yo i a b : Nat} (x y : Nat → T)
    (hx : ∀ e ∈ L, xo + e.col < nx) (hy : yo + rows ≤ ny) (hi : i < rows)
    (ha : a = L.countP (fun e => decide (e.row < i))) (hb : b = L.countP (fun e => decide (e.row < i + 1))) :
    forLoop a b (Buf.full ny y) (csrInner ci v base (Buf.full nx x) xo (yo + i)) =
      .ok (Buf.full ny (visit x y (shift yo xo ((L.take b).drop a)))) := by
  have hab : a ≤ b := by subst ha hb; exact countP_lt_mono L (·.row) (by omega)
  have hbl : b ≤ L.length := by subst hb; exact List.countP_le_length
  rw [forLoop_slice (f := csrInner ci v base (Buf.full nx x) xo (yo + i)) L (Buf.full ny)
    (fun y e => addAt y (yo + e.row) (e.val * x (xo + e.col))) y hab hbl]
  · congr 2
    unfold visit shift
    rw [List.foldl_map]
  · intro j y h h1 h2
    have hrow : L[j].row = i := slice_eq L (·.row) R.sorted i j h (by omega) (by omega)
    unfold csrInner
    rw [Buf.get_ok (R.vDat j h).1 (R.vDat j h).2, ok_bind, Buf.get_ok (R.ciDat j h).1 (R.ciDat j h).2,
      ok_bind, macc_full (by omega) (hx _ (List.getElem_mem h)), hrow]

theorem spmvCsr_spec [Add T] [Mul T] {L : List (Ent T)} {base rows : Nat} {rp ci : Buf Nat} {v : Buf T}
    (R : CsrRep L base rows rp ci v) {nx ny xo yo : Nat} (x y : Nat → T)
    (hx : ∀ e ∈ L, xo + e.col < nx) (hy : yo + rows ≤ ny) :
    spmvCsr rp ci v base rows (Buf.full nx x) xo (Buf.full ny y) yo =
      .ok (Buf.full ny (spmvInOrder (shift yo xo L) x y)) := by
  unfold spmvCsr
  refine forLoop_closed' (fun i =>
    Buf.full ny (visit x y (shift yo xo (L.take (L.countP (fun e => decide (e.row < i)))))))
    (Nat.zero_le _) ?_ ?_ ?_
  · simp [visit, shift]
  · rw [countP_lt_all L (·.row) rows R.range, List.take_length, visit_eq]
  · intro i _ hi
    unfold spmvCsrRow
    have := R.rpLen
    rw [Buf.get_ok (by omega) (R.rpDat i (by omega)), ok_bind,
      Buf.get_ok (by omega) (R.rpDat (i+1) (by omega)), ok_bind,
      csrInner_slice R x _ hx hy hi rfl rfl, ← visit_append, ← shift_append,
      take_drop_append L (countP_lt_mono L (·.row) (by omega))]

theorem spmvCsrSerial_spec [Add T] [Mul T] {L : List (Ent T)} {base rows : Nat} {rp ci : Buf Nat} {v : Buf T}
    (R : CsrRep L base rows rp ci v) {nx ny xo yo : Nat} (x y : Nat → T)
    (hx : ∀ e ∈ L, xo + e.col < nx) (hy : yo + rows ≤ ny) :
    spmvCsrSerial rp ci v base rows (Buf.full nx x) xo (Buf.full ny y) yo =
      .ok (Buf.full ny (spmvInOrder (shift yo xo L) x y)) := by
  unfold spmvCsrSerial
  have h0 : L.countP (fun e => decide (e.row < 0)) = 0 := by simp
  have := R.rpLen
  rw [Buf.get_ok (by omega) (R.rpDat 0 (by omega)), ok_bind, h0]
  rw [forLoop_closed' (fun i => (L.countP (fun e => decide (e.row < i)),
    Buf.full ny (visit x y (shift yo xo (L.take (L.countP (fun e => decide (e.row < i))))))))
    (Nat.zero_le _) (by simp [visit, shift]) rfl]
  · rw [ok_bind]
    simp only
    rw [countP_lt_all L (·.row) rows R.range, List.take_length, visit_eq]
  · intro i _ hi
    simp only
    rw [Buf.get_ok (by omega) (R.rpDat (i+1) (by omega)), ok_bind,
      csrInner_slice R x _ hx hy hi rfl rfl, ok_bind, ← visit_append, ← shift_append,
      take_drop_append L (countP_lt_mono L (·.row) (by omega))]

/-! ### The row-major sort -/

theorem leOf_ltRowMajor (a b : ε) : leOf ltRowMajor a b =
    decide ((NZ.toEnt a).row < (NZ.toEnt b).row ∨
      ((NZ.toEnt a).row = (NZ.toEnt b).row ∧ (NZ.toEnt a).col ≤ (NZ.toEnt b).col)) := by
  rw [Bool.eq_iff_iff]
  simp only [leOf, ltRowMajor, Bool.not_eq_true', Bool.or_eq_false_iff, Bool.and_eq_false_iff,
    decide_eq_false_iff_not, beq_eq_false_iff_ne, decide_eq_true_eq]
  omega

theorem totalPre_rowMajor : TotalPre (leOf (ltRowMajor (ε := ε))) := by
  refine ⟨fun a b c => ?_, fun a b => ?_⟩ <;> simp only [leOf_ltRowMajor, Bool.or_eq_true,
    decide_eq_true_eq] <;> omega

theorem sortTriplets_perm (es : List ε) (rm : Bool) : (sortTriplets es rm).Perm es := by
  unfold sortTriplets pssSort; split <;> exact List.mergeSort_perm _ _

theorem sortTriplets_sorted (es : List ε) :
    (sortTriplets es).Pairwise (fun a b => (NZ.toEnt a).row ≤ (NZ.toEnt b).row) := by
  have := List.pairwise_mergeSort (totalPre_rowMajor (ε := ε)).trans totalPre_rowMajor.total es
  unfold sortTriplets pssSort
  refine List.Pairwise.imp ?_ this
  intro a b h
  rw [leOf_ltRowMajor] at h
  simp only [decide_eq_true_eq] at h
  omega

theorem ents_sortTriplets (es : List ε) :
    ents (sortTriplets es) = (ents es).mergeSort (leOf ltRowMajor) := by
  unfold ents sortTriplets pssSort
  exact List.map_mergeSort (fun a _ b _ => by rw [leOf_ltRowMajor, leOf_ltRowMajor]; rfl)

theorem ents_perm {l l' : List ε} (h : l.Perm l') : (ents l).Perm (ents l') := h.map _

theorem sortTriplets_exact [Add T] [Mul T] (es : List ε) (x y : Nat → T) :
    spmvInOrder (ents (sortTriplets es)) x y = spmvExact (ents es) x y := by
  rw [ents_sortTriplets]
  refine spmvInOrder_mergeSort totalPre_rowMajor _ (fun a _ b _ h => ?_) x y
  rw [leOf_ltRowMajor]
  simp only [decide_eq_decide]
  show a.row < b.row ∨ a.row = b.row ∧ a.col ≤ b.col ↔ _
  omega

theorem mem_sortTriplets {es : List ε} {e : ε} {rm : Bool} : e ∈ sortTriplets es rm ↔ e ∈ es :=
  (sortTriplets_perm es rm).mem_iff

theorem length_sortTriplets (es : List ε) (rm : Bool) : (sortTriplets es rm).length = es.length :=
  (sortTriplets_perm es rm).length_eq

end Gsb
