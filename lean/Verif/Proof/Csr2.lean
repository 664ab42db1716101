import Verif.Proof.Csr
/-
Helper lemmas for Csr2.
-/
namespace Gsb
variable {ε T : Type} [NZ ε T]

/-- The Csr2 matrix built from `es`. -/
def csr2Of (es : List ε) (rows columns : Nat) : Csr2 T where
  dataVal := ⟨es.length, fun k => (es[k]?).map (fun e => (NZ.toEnt e).val)⟩
  dataIndex := ⟨es.length, fun k => (es[k]?).map (fun e => (NZ.toEnt e).col)⟩
  rowPtr := Buf.full (rows + 1) (fun k => if k ≤ rows then es.countP (fun e => decide ((NZ.toEnt e).row < k))
          else es.countP (fun e => (NZ.toEnt e).row + 1 == k))
  rows := rows
  columns := columns

theorem cooToCsr2_spec (M : Nat) (es : List ε) (rows columns : Nat) (isSorted : Bool)
    (hM : es.length < M) (hr : rows + 1 < M) (hrow : ∀ e ∈ es, (NZ.toEnt e).row < rows) :
    cooToCsr2 M es rows columns isSorted =
      .ok (csr2Of (if isSorted then es else sortTriplets es) rows columns,
        if isSorted then es else sortTriplets es) := by
  unfold cooToCsr2
  simp only
  have hlen : (if isSorted then es else sortTriplets es).length = es.length := by
    split
    · rfl
    · exact length_sortTriplets es true
  have hrow' : ∀ e ∈ (if isSorted then es else sortTriplets es), (NZ.toEnt e).row < rows := by
    split
    · exact hrow
    · intro e he; exact hrow e (mem_sortTriplets.1 he)
  generalize (if isSorted then es else sortTriplets es) = es' at *
  rw [← hlen] at hM
  clear hlen hrow es
  rw [forLoop_closed' (fun i =>
    ((⟨es'.length, fun k => ((es'.take i)[k]?).map (fun e => (NZ.toEnt e).col)⟩ : Buf Nat),
     (⟨es'.length, fun k => ((es'.take i)[k]?).map (fun e => (NZ.toEnt e).val)⟩ : Buf T),
     Buf.full (rows + 1) (fun k => (es'.take i).countP (fun e => (NZ.toEnt e).row + 1 == k))))
    (Nat.zero_le _) (by simp [Buf.uninit, Buf.filled, Buf.full, addM_eq hr]) rfl]
  · rw [ok_bind]
    simp only [List.take_length]
    rw [prefixSum_count es' (fun e => (NZ.toEnt e).row) rfl hM, ok_bind, Buf.get_full (by omega), ok_bind]
    simp only [Nat.le_refl, if_true]
    rw [countP_lt_all es' (fun e => (NZ.toEnt e).row) rows hrow']
    simp [csr2Of]
  · intro i _ hi
    have hlen : (es'.take i).length = i := by simp; omega
    have htake : es'.take (i + 1) = es'.take i ++ [es'[i]] := by
      rw [List.take_add_one]; simp [hi]
    have hri : (NZ.toEnt es'[i]).row < rows := hrow' _ (List.getElem_mem hi)
    rw [rd_ok hi, ok_bind]
    simp only
    rw [fill_put (es'.take i) (fun e => (NZ.toEnt e).col) es'[i] hlen hi, ok_bind,
      fill_put (es'.take i) (fun e => (NZ.toEnt e).val) es'[i] hlen hi, ok_bind,
      addM_eq (by omega),
      incr_count (es'.take i) (fun e => (NZ.toEnt e).row) es'[i] (by omega) (by omega), ok_bind, htake]

/-- Visiting entries of a single row only changes that component. -/
theorem visit_row [Add T] [Mul T] (x y : Nat → T) (l : List (Ent T)) (i : Nat) (h : ∀ e ∈ l, e.row = i) :
    visit x y l = fun k => if k = i then accumulate x (y i) l else y k := by
  rw [visit_eq]
  funext k
  unfold spmvInOrder rowEntries
  by_cases hk : k = i
  · subst hk
    rw [List.filter_eq_self.2 (by intro e he; simp [h e he])]
    simp
  · rw [List.filter_eq_nil_iff.2 (by intro e he; simp [h e he]; exact fun hh => hk hh.symm)]
    simp [hk, accumulate]

section
variable [Add T] [Mul T] {es : List ε} {rows columns : Nat}

theorem csr2Inner_slice (hs : es.Pairwise (fun a b => (NZ.toEnt a).row ≤ (NZ.toEnt b).row))
    {nx : Nat} (hx : ∀ e ∈ ents es, e.col < nx) (x y : Nat → T) {i : Nat} :
    let a := (ents es).countP (fun e => decide (e.row < i))
    let b := (ents es).countP (fun e => decide (e.row < i + 1))
    ∃ r, forLoop a b (y i) (csr2Inner (csr2Of es rows columns) (Buf.full nx x)) = .ok r ∧
      (fun k => if k = i then r else y k) = visit x y (((ents es).take b).drop a) := by
  intro a b
  have hab : a ≤ b := countP_lt_mono (ents es) (·.row) (by omega)
  have hbl : b ≤ (ents es).length := List.countP_le_length
  refine ⟨_, forLoop_slice (τ := T) (ents es) id (fun r e => r + e.val * x e.col) (y i) hab hbl ?_, ?_⟩
  · intro j r h h1 h2
    have h' : j < es.length := by simpa [ents] using h
    unfold csr2Inner
    rw [Buf.get_ok (a := (ents es)[j].val) (by simpa [csr2Of] using h') (by simp [csr2Of, ents, h']), ok_bind,
      Buf.get_ok (a := (ents es)[j].col) (by simpa [csr2Of] using h') (by simp [csr2Of, ents, h']), ok_bind,
      Buf.get_full (hx _ (List.getElem_mem h)), ok_bind]
    rfl
  · rw [visit_row x y _ i]
    · rfl
    · intro e he
      obtain ⟨j, hj, rfl⟩ := List.mem_iff_getElem.1 he
      rw [List.getElem_drop, List.getElem_take]
      simp only [List.length_drop, List.length_take] at hj
      exact slice_eq (ents es) (·.row) (by unfold ents; rw [List.pairwise_map]; exact hs) i (a + j) (by omega)
        (by omega) (by omega)

omit [Add T] [Mul T] in
theorem csr2Of_rp (i : Nat) (hi : i ≤ rows) :
    (csr2Of es rows columns : Csr2 T).rowPtr.get i =
      .ok ((ents es).countP (fun e => decide (e.row < i))) := by
  unfold csr2Of
  simp only
  rw [Buf.get_full (by omega)]
  simp [hi, ents, List.countP_map, Function.comp_def]

theorem csr2_spmv_spec (hs : es.Pairwise (fun a b => (NZ.toEnt a).row ≤ (NZ.toEnt b).row))
    (hr : ∀ e ∈ ents es, e.row < rows) {nx ny : Nat}
    (hx : ∀ e ∈ ents es, e.col < nx) (hy : rows ≤ ny) (x y : Nat → T) :
    (csr2Of es rows columns).spmv (Buf.full nx x) (Buf.full ny y) =
      .ok (Buf.full ny (spmvInOrder (ents es) x y)) := by
  unfold Csr2.spmv
  refine forLoop_closed' (fun i =>
    Buf.full ny (visit x y ((ents es).take ((ents es).countP (fun e => decide (e.row < i))))))
    (Nat.zero_le _) ?_ ?_ ?_
  · simp [visit]
  · show Buf.full ny (visit x y ((ents es).take ((ents es).countP (fun e => decide (e.row < rows))))) = _
    rw [countP_lt_all (ents es) (·.row) rows hr, List.take_length, visit_eq]
  · intro i _ hi
    have hi : i < rows := hi
    unfold Csr2.spmvRow
    obtain ⟨r, e1, e2⟩ := csr2Inner_slice (rows := rows) (columns := columns) (i := i) hs hx x
      (visit x y ((ents es).take ((ents es).countP (fun e => decide (e.row < i)))))
    rw [csr2Of_rp i (by omega), ok_bind, csr2Of_rp (i+1) (by omega), ok_bind, Buf.get_full (by omega), ok_bind,
      e1, ok_bind, Buf.put_full (by omega), e2, ← visit_append,
      take_drop_append (ents es) (countP_lt_mono (ents es) (·.row) (by omega))]

theorem csr2_spmvSerial_spec (hs : es.Pairwise (fun a b => (NZ.toEnt a).row ≤ (NZ.toEnt b).row))
    (hr : ∀ e ∈ ents es, e.row < rows) {nx ny : Nat}
    (hx : ∀ e ∈ ents es, e.col < nx) (hy : rows ≤ ny) (x y : Nat → T) :
    (csr2Of es rows columns).spmvSerial (Buf.full nx x) (Buf.full ny y) =
      .ok (Buf.full ny (spmvInOrder (ents es) x y)) := by
  unfold Csr2.spmvSerial
  have h0 : (ents es).countP (fun e => decide (e.row < 0)) = 0 := by simp
  rw [csr2Of_rp 0 (by omega), ok_bind, h0]
  rw [forLoop_closed' (fun i => ((ents es).countP (fun e => decide (e.row < i)),
    Buf.full ny (visit x y ((ents es).take ((ents es).countP (fun e => decide (e.row < i)))))))
    (Nat.zero_le _) (by simp [visit]) rfl]
  · rw [ok_bind]
    show Except.ok (Buf.full ny (visit x y ((ents es).take ((ents es).countP (fun e => decide (e.row < rows)))))) = _
    rw [countP_lt_all (ents es) (·.row) rows hr, List.take_length, visit_eq]
  · intro i _ hi
    have hi : i < rows := hi
    obtain ⟨r, e1, e2⟩ := csr2Inner_slice (rows := rows) (columns := columns) (i := i) hs hx x
      (visit x y ((ents es).take ((ents es).countP (fun e => decide (e.row < i)))))
    simp only
    rw [csr2Of_rp (i+1) (by omega), ok_bind, Buf.get_full (by omega), ok_bind,
      e1, ok_bind, Buf.put_full (by omega), ok_bind, e2, ← visit_append,
      take_drop_append (ents es) (countP_lt_mono (ents es) (·.row) (by omega))]

end
end Gsb
