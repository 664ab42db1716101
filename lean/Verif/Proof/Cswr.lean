import Verif.Model.Cswr
import Verif.Proof.Coo
namespace Gsb
variable {ε T : Type} [NZ ε T]

/-- A loop whose iteration `i` accumulates the slice of `L` with key `i` accumulates all of `L`. -/
theorem loop_slices [Add T] [Mul T] (L : List (Ent T)) (key : Ent T → Nat) {n ny : Nat} {x y : Nat → T}
    {body : Nat → Buf T → C (Buf T)} (hr : ∀ e ∈ L, key e < n)
    (hb : ∀ i, i < n → ∀ y, body i (Buf.full ny y) = .ok (Buf.full ny (visit x y
      ((L.take (L.countP (fun e => decide (key e < i + 1)))).drop
        (L.countP (fun e => decide (key e < i))))))) :
    forLoop 0 n (Buf.full ny y) body = .ok (Buf.full ny (visit x y L)) := by
  refine forLoop_closed' (fun i =>
    Buf.full ny (visit x y (L.take (L.countP (fun e => decide (key e < i)))))) (Nat.zero_le _) ?_ ?_ ?_
  · simp [visit]
  · rw [countP_lt_all L key n hr, List.take_length]
  · intro i _ hi
    rw [hb i hi, ← visit_append, take_drop_append L (countP_lt_mono L key (by omega))]

/-- The wide-row matrix built from the sorted array `es`. -/
def cswrOf (S : Nat) (es : List ε) (rows columns width nwrows : Nat) : Cswr T where
  val := ⟨es.length, fun k => (es[k]?).map (fun e => (NZ.toEnt e).val)⟩
  row := ⟨es.length, fun k => (es[k]?).map (fun e => (NZ.toEnt e).row % width % S)⟩
  col := ⟨es.length, fun k => (es[k]?).map (fun e => (NZ.toEnt e).col)⟩
  wrowPtr := Buf.full (nwrows + 1) (fun k => if k ≤ nwrows then
    es.countP (fun e => decide ((NZ.toEnt e).row / width < k))
    else es.countP (fun e => (NZ.toEnt e).row / width + 1 == k))
  rows := rows
  columns := columns
  nwrows := nwrows
  width := width
  nnz := es.length

theorem cswrFill_spec (M S width nwrows : Nat) (es : List ε) (hw : 0 < width)
    (hM : es.length < M) (hr : nwrows + 1 < M) (hrow : ∀ e ∈ es, (NZ.toEnt e).row / width < nwrows) :
    forLoop 0 es.length
      (Buf.filled (addM M nwrows 1) 0, (Buf.uninit es.length : Buf Nat), (Buf.uninit es.length : Buf Nat),
        (Buf.uninit es.length : Buf T)) (cswrFillStep M S width es) =
    .ok (Buf.full (nwrows + 1) (fun k => es.countP (fun e => (NZ.toEnt e).row / width + 1 == k)),
         ⟨es.length, fun k => (es[k]?).map (fun e => (NZ.toEnt e).row % width % S)⟩,
         ⟨es.length, fun k => (es[k]?).map (fun e => (NZ.toEnt e).col)⟩,
         ⟨es.length, fun k => (es[k]?).map (fun e => (NZ.toEnt e).val)⟩) := by
  refine forLoop_closed' (fun i =>
    (Buf.full (nwrows + 1) (fun k => (es.take i).countP (fun e => (NZ.toEnt e).row / width + 1 == k)),
     (⟨es.length, fun k => ((es.take i)[k]?).map (fun e => (NZ.toEnt e).row % width % S)⟩ : Buf Nat),
     (⟨es.length, fun k => ((es.take i)[k]?).map (fun e => (NZ.toEnt e).col)⟩ : Buf Nat),
     (⟨es.length, fun k => ((es.take i)[k]?).map (fun e => (NZ.toEnt e).val)⟩ : Buf T)))
    (Nat.zero_le _) ?_ ?_ ?_
  · simp [Buf.uninit, Buf.filled, Buf.full, addM_eq hr]
  · simp
  · intro i _ hi
    have hlen : (es.take i).length = i := by simp; omega
    have htake : es.take (i + 1) = es.take i ++ [es[i]] := by
      rw [List.take_add_one]; simp [hi]
    have hri : (NZ.toEnt es[i]).row / width < nwrows := hrow _ (List.getElem_mem hi)
    unfold cswrFillStep
    rw [rd_ok hi, ok_bind, cdiv_ok hw, ok_bind]
    simp only
    rw [addM_eq (by omega),
      incr_count (es.take i) (fun e => (NZ.toEnt e).row / width) es[i] (by omega) (by omega), ok_bind,
      cmod_ok hw, ok_bind,
      fill_put (es.take i) (fun e => (NZ.toEnt e).row % width % S) es[i] hlen hi, ok_bind,
      fill_put (es.take i) (fun e => (NZ.toEnt e).col) es[i] hlen hi, ok_bind,
      fill_put (es.take i) (fun e => (NZ.toEnt e).val) es[i] hlen hi, ok_bind, htake]
    rw [Buf.get_ok (a := (NZ.toEnt es[i]).row % width % S) (by simpa using hi)
      (by simp [List.getElem?_eq_getElem hi]), ok_bind]
    rw [cassert_ok, ok_bind]
    have h1 := Nat.mod_lt (NZ.toEnt es[i]).row hw
    have h2 := Nat.mod_le ((NZ.toEnt es[i]).row % width) S
    simp; omega

/-- The conversion when every entry is in one of the wide rows (the last of which may go beyond the matrix). -/
theorem cooToCswr_wide (M S : Nat) (es : List ε) (rows columns width : Nat) (hw : 0 < width)
    (hM : es.length < M) (hr : rows + width < M) (hrow : ∀ e ∈ ents es, e.row / width < (rows + width - 1) / width) :
    cooToCswr M S es rows columns width =
      .ok (cswrOf S (sortTripletsWide width es) rows columns width ((rows + width - 1) / width),
        sortTripletsWide width es) := by
  have hp : (sortTripletsWide width es).Perm es := List.mergeSort_perm _ _
  unfold cooToCswr
  have hnw : (rows + width - 1) / width ≤ rows := by
    rw [Nat.div_le_iff_le_mul_add_pred hw]
    have : rows ≤ width * rows := Nat.le_mul_of_pos_left rows hw
    omega
  have hrow' : ∀ e ∈ sortTripletsWide width es, (NZ.toEnt e).row / width < (rows + width - 1) / width := fun e he =>
    hrow _ (List.mem_map_of_mem (hp.mem_iff.1 he))
  rw [addM_eq (by omega), subM_eq (by omega) (by omega), cdiv_ok hw, ok_bind]
  simp only
  rw [cswrFill_spec M S width _ _ hw (by rw [hp.length_eq]; exact hM) (by omega) hrow', ok_bind]
  simp only
  rw [prefixSum_count _ (fun e : ε => (NZ.toEnt e).row / width) rfl (by rw [hp.length_eq]; exact hM), ok_bind,
    Buf.get_full (by omega), ok_bind]
  simp only [Nat.le_refl, if_true]
  rw [countP_lt_all _ (fun e : ε => (NZ.toEnt e).row / width) _ hrow']
  simp [cswrOf]

theorem cooToCswr_spec (M S : Nat) (es : List ε) (rows columns width : Nat) (hw : 0 < width)
    (hM : es.length < M) (hr : rows + width < M) (hrow : ∀ e ∈ ents es, e.row < rows) :
    cooToCswr M S es rows columns width =
      .ok (cswrOf S (sortTripletsWide width es) rows columns width ((rows + width - 1) / width),
        sortTripletsWide width es) := by
  refine cooToCswr_wide M S es rows columns width hw hM hr fun e he => ?_
  have := hrow _ he
  rw [Nat.div_lt_iff_lt_mul hw]
  have h1 := Nat.div_add_mod (rows + width - 1) width
  have h2 := Nat.mod_lt (rows + width - 1) hw
  rw [Nat.mul_comm] at h1
  omega

theorem leOf_ltWide (width : Nat) (a b : ε) : leOf (ltWide width) a b =
      decide ((NZ.toEnt a).row / width < (NZ.toEnt b).row / width ∨
      ((NZ.toEnt a).row / width = (NZ.toEnt b).row / width ∧ ((NZ.toEnt a).col < (NZ.toEnt b).col ∨
       ((NZ.toEnt a).col = (NZ.toEnt b).col ∧ (NZ.toEnt a).row ≤ (NZ.toEnt b).row)))) := by
  rw [Bool.eq_iff_iff]
  simp only [leOf, ltWide, Bool.not_eq_true', Bool.or_eq_false_iff, Bool.and_eq_false_iff,
    decide_eq_false_iff_not, beq_eq_false_iff_ne, decide_eq_true_eq]
  omega

theorem totalPre_wide (width : Nat) : TotalPre (leOf (ltWide (ε := ε) width)) := by
  refine ⟨fun a b c => ?_, fun a b => ?_⟩ <;> simp only [leOf_ltWide, Bool.or_eq_true,
    decide_eq_true_eq] <;> omega

theorem sortWide_sorted (width : Nat) (es : List ε) :
    (sortTripletsWide width es).Pairwise (fun a b => (NZ.toEnt a).row / width ≤ (NZ.toEnt b).row / width) := by
  have := List.pairwise_mergeSort (totalPre_wide (ε := ε) width).trans (totalPre_wide width).total es
  refine List.Pairwise.imp ?_ this
  intro a b h
  rw [leOf_ltWide] at h
  simp only [decide_eq_true_eq] at h
  omega

theorem sortWide_exact [Add T] [Mul T] (width : Nat) (es : List ε) (x y : Nat → T) :
    spmvInOrder (ents (sortTripletsWide width es)) x y = spmvExact (ents es) x y := by
  have e : ents (sortTripletsWide width es) = (ents es).mergeSort (leOf (ltWide width)) := by
    unfold ents sortTripletsWide pssSort
    exact List.map_mergeSort (fun a _ b _ => by rw [leOf_ltWide, leOf_ltWide]; rfl)
  rw [e]
  refine spmvInOrder_mergeSort (totalPre_wide width) _ (fun a _ b _ h => ?_) x y
  rw [leOf_ltWide]
  simp only [decide_eq_decide]
  show a.row / width < b.row / width ∨ a.row / width = b.row / width ∧
    (a.col < b.col ∨ a.col = b.col ∧ a.row ≤ b.row) ↔ _
  rw [h]; omega

/-- The kernel on any wide-row array: local row indices truncated to `S` values. -/
theorem cswrOf_spmv [Add T] [Mul T] (M S : Nat) (es : List ε) (rows columns width nwrows : Nat) (hw : 0 < width)
    (hM : es.length < M) (hwM : width * nwrows < M + width)
    (hs : es.Pairwise (fun a b => (NZ.toEnt a).row / width ≤ (NZ.toEnt b).row / width))
    (hrow : ∀ e ∈ es, (NZ.toEnt e).row / width < nwrows)
    {nx ny : Nat} (hx : ∀ e ∈ ents es, e.col < nx)
    (hy : ∀ e ∈ ents es, width * (e.row / width) + e.row % width % S < ny) (x y : Nat → T) :
    (cswrOf S es rows columns width nwrows).spmv M (Buf.full nx x) (Buf.full ny y) =
      .ok (Buf.full ny (spmvInOrder ((ents es).map (fun e =>
        ⟨width * (e.row / width) + e.row % width % S, e.col, e.val⟩)) x y)) := by
  unfold Cswr.spmv
  rw [← visit_eq]
  rcases Nat.eq_zero_or_pos nwrows with h0 | hpos
  · have : es = [] := by
      cases es with
      | nil => rfl
      | cons a l => exact absurd (hrow a (by simp)) (by rw [h0]; exact Nat.not_lt_zero _)
    subst this; subst h0
    rfl
  set L : List (Ent T) := (ents es).map (fun e => ⟨width * (e.row / width) + e.row % width % S, e.col, e.val⟩) with hL
  have hkey : ∀ e : ε, (width * ((NZ.toEnt e).row / width) + (NZ.toEnt e).row % width % S) / width =
      (NZ.toEnt e).row / width := by
    intro e
    rw [Nat.mul_add_div hw, Nat.div_eq_of_lt (Nat.lt_of_le_of_lt (Nat.mod_le _ _) (Nat.mod_lt _ hw))]; omega
  have hcnt : ∀ k, L.countP (fun e => decide (e.row / width < k)) =
      es.countP (fun e => decide ((NZ.toEnt e).row / width < k)) := by
    intro k
    rw [hL]; unfold ents
    rw [List.countP_map, List.countP_map]
    congr 1
    funext e
    simp only [Function.comp_def]
    rw [hkey]
  have hLl : L.length = es.length := by simp [hL, ents]
  have hLs : L.Pairwise (fun a b => a.row / width ≤ b.row / width) := by
    rw [hL]; unfold ents
    rw [List.pairwise_map, List.pairwise_map]
    refine List.Pairwise.imp ?_ hs
    intro a b h
    simp only
    rw [hkey, hkey]; exact h
  refine loop_slices L (fun e => e.row / width) ?_ ?_
  · intro e he
    simp only [hL, ents, List.mem_map] at he
    obtain ⟨a, ⟨b, hb, rfl⟩, rfl⟩ := he
    simp only
    rw [hkey]; exact hrow b hb
  · intro i hi y
    have hi' : i < nwrows := hi
    unfold Cswr.spmvRow
    simp only [cswrOf]
    rw [Buf.get_full (by omega), ok_bind, Buf.get_full (by omega), ok_bind]
    rw [if_pos (by omega), if_pos (by omega), ← hcnt, ← hcnt]
    set a := L.countP (fun e => decide (e.row / width < i)) with ha
    set b := L.countP (fun e => decide (e.row / width < i + 1)) with hb
    have hab : a ≤ b := countP_lt_mono L (fun e => e.row / width) (by omega)
    have hbl : b ≤ L.length := List.countP_le_length
    have hwi : width * i < M := by
      have : width * (i + 1) ≤ width * nwrows := Nat.mul_le_mul_left _ hi'
      rw [Nat.mul_add] at this; omega
    rw [subM_eq (by omega) hab, mulM_eq hwi]
    have hslice : ∀ j (h : j < (es.take b |>.drop a).length), (es.take b |>.drop a)[j] = es[a + j]'(by
        simp at h; omega) := by
      intro j h; simp
    have hk : ∀ e ∈ es.take b |>.drop a, (NZ.toEnt e).row / width = i := by
      intro e he
      obtain ⟨j, hj, rfl⟩ := List.getElem_of_mem he
      rw [hslice j hj]
      have hj2 : j < b - a := by simp at hj; omega
      refine slice_eq es (fun e => (NZ.toEnt e).row / width) hs i (a + j) _ ?_ ?_
      · rw [← hcnt, ← ha]; omega
      · rw [← hcnt, ← hb]; omega
    have R : CooRep (((es.take b).drop a).map (fun e : ε =>
        (⟨(NZ.toEnt e).row % width % S, (NZ.toEnt e).col, (NZ.toEnt e).val⟩ : Ent T))) a
        ⟨es.length, fun k => (es[k]?).map (fun e => (NZ.toEnt e).row % width % S)⟩
        ⟨es.length, fun k => (es[k]?).map (fun e => (NZ.toEnt e).col)⟩
        (⟨es.length, fun k => (es[k]?).map (fun e => (NZ.toEnt e).val)⟩ : Buf T) := by
      constructor <;>
      · intro j h
        have hj : j < ((es.take b).drop a).length := by simpa using h
        have hj2 : a + j < es.length := by simp at hj; omega
        refine ⟨hj2, ?_⟩
        simp [hj2]
    rw [spmvCoo_spec R (by simp; omega) x y, ← visit_eq]
    · congr 3
      rw [hL]; unfold shift ents
      rw [← List.map_take, ← List.map_drop, ← List.map_take, ← List.map_drop, List.map_map, List.map_map]
      refine List.map_congr_left (fun e he => ?_)
      simp [hk e he]
    · intro e he
      obtain ⟨c, hc, rfl⟩ := List.mem_map.1 he
      have := hx _ (List.mem_map_of_mem (f := NZ.toEnt) (List.mem_of_mem_take (List.mem_of_mem_drop hc)))
      simpa using this
    · intro e he
      obtain ⟨c, hc, rfl⟩ := List.mem_map.1 he
      have := hy _ (List.mem_map_of_mem (f := NZ.toEnt) (List.mem_of_mem_take (List.mem_of_mem_drop hc)))
      rw [hk c hc] at this
      exact this

end Gsb
