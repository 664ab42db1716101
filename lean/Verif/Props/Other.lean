import Verif.Proof.Dense
import Verif.Proof.Cswr
import Verif.Proof.CrCsr
/-
Properties C05 (dense), C06 (compressed-row CSR), C07 (wide rows).
-/
namespace Gsb
variable {ε T : Type} [NZ ε T]

/-! ### C05 -/

/-- **C05**, storage: when `rows * columns` fits the index type, both dense constructors succeed
and cell `(i, j)` holds the last value given for it (zero if none). -/
theorem C05_dense_storage [Zero T] (M rows columns : Nat) (es : List ε)
    (hM : rows * columns < M) (hc : 0 < columns) (hin : InRange (ents es) rows columns) :
    ∃ A : Dense T, mkDense M es rows columns = .ok A ∧ cooToDense M es rows columns = .ok A ∧
      A.rows = rows ∧ A.columns = columns ∧
      ∀ i j, i < rows → j < columns → A.val.get (i * columns + j) = .ok (lastAt (ents es) i j) := by
  refine ⟨⟨_, rows, columns⟩, by unfold mkDense; rw [denseFill_spec M es rows columns hM hin, ok_bind], ?_, rfl, rfl, ?_⟩
  · unfold cooToDense
    simp only
    rw [cassert_ok (by rw [mulM_eq hM]; simp; exact Nat.le_mul_of_pos_right rows hc), ok_bind,
      denseFill_spec M es rows columns hM hin, ok_bind]
  · intro i j hi hj
    rw [Buf.get_full (pos_lt hi hj)]
    have h' := (pos_iff (r := i) hj).1 rfl
    rw [← h'.1, ← h'.2]

/-- **C05**, exact product: `y[i]` gets every product of row `i`, zeros included, left to right. -/
theorem C05_dense_spmv [Zero T] [Add T] [Mul T] (M rows columns : Nat) (es : List ε)
    (hM : rows * columns < M) (hin : InRange (ents es) rows columns) (x y : Nat → T) :
    ∃ A : Dense T, mkDense M es rows columns = .ok A ∧ ∃ y',
      A.spmv M (Buf.full columns x) 0 (Buf.full rows y) 0 = .ok (Buf.full rows y') ∧
      ∀ i, i < rows → y' i = denseAcc (lastAt (ents es) i) x columns (y i) := by
  refine ⟨⟨_, rows, columns⟩, by unfold mkDense; rw [denseFill_spec M es rows columns hM hin, ok_bind], _,
    dense_spmv_spec M _ (lastAt (ents es)) hM rfl ?_ (by simp) (by simp) x y, ?_⟩
  · intro i j hi hj
    simp only [Buf.full_dat]
    have h' := (pos_iff (r := i) (p := i * columns + j) hj).1 rfl
    rw [← h'.1, ← h'.2]
  · intro i hi
    simp [hi]

/-- **C05**, semiring: for distinct coordinates the dense product is the sparse one, `y + A x`. -/
theorem C05_dense_distinct [NonUnitalNonAssocSemiring T] (M rows columns : Nat) (es : List ε)
    (hM : rows * columns < M) (hin : InRange (ents es) rows columns) (hd : Distinct (ents es))
    (x y : Nat → T) :
    ∃ A : Dense T, mkDense M es rows columns = .ok A ∧
      A.spmv M (Buf.full columns x) 0 (Buf.full rows y) 0 =
        .ok (Buf.full rows (spmvSum (ents es) x y)) := by
  refine ⟨⟨_, rows, columns⟩, by unfold mkDense; rw [denseFill_spec M es rows columns hM hin, ok_bind], ?_⟩
  have := dense_spmv_sum M es rows columns hM hin hd (nx := columns) (ny := rows) (xo := 0) (yo := 0)
    (by simp) (by simp) x y
  rwa [shift_zero] at this

/-- **C05**, duplicates: two values for one coordinate — the dense block keeps only the last, so its
product differs from the sparse one by the first value's product. -/
theorem C05_dense_duplicates [NonUnitalNonAssocSemiring T] (M : Nat) (hM : 1 < M) (v w : T) (x y : Nat → T) :
    ∃ (A : Dense T) (y' : Nat → T), mkDense M [(⟨0, 0, v⟩ : Ent T), ⟨0, 0, w⟩] 1 1 = .ok A ∧
      A.spmv M (Buf.full 1 x) 0 (Buf.full 1 y) 0 = .ok (Buf.full 1 y') ∧
      y' 0 = y 0 + w * x 0 ∧
      spmvSum [(⟨0, 0, v⟩ : Ent T), ⟨0, 0, w⟩] x y 0 = y 0 + (v * x 0 + w * x 0) := by
  obtain ⟨A, h1, y', h2, h3⟩ := C05_dense_spmv M 1 1 [(⟨0, 0, v⟩ : Ent T), ⟨0, 0, w⟩] (by omega)
    (by intro e he; simp [ents, NZ.toEnt] at he; rcases he with rfl | rfl <;> simp) x y
  refine ⟨A, y', h1, h2, ?_, by simp [spmvSum, rowEntries]⟩
  rw [h3 0 (by omega)]
  simp [denseAcc, lastAt, ents, NZ.toEnt]

/-- **C05**, overflow: with `K*K` index values and a `K × (K+1)` matrix the wrapped size is `K`, the
overflow assertion passes, and an in-range entry in row 1 is written out of bounds. -/
theorem C05_dense_overflow [Zero T] (K : Nat) (hK : 1 < K) (v : T) :
    InRange [(⟨1, 0, v⟩ : Ent T)] K (K + 1) ∧
    (cooToDense (K * K) [(⟨1, 0, v⟩ : Ent T)] K (K + 1) : C (Dense T)) = .error .oob := by
  refine ⟨by intro e he; simp at he; subst he; simp; omega, ?_⟩
  have h2 : 2 * K ≤ K * K := Nat.mul_le_mul_right K hK
  have hN : mulM (K * K) K (K + 1) = K := by
    unfold mulM; rw [Nat.mul_add, Nat.mul_one, Nat.add_mod_left, Nat.mod_eq_of_lt (by omega)]
  unfold cooToDense
  simp only
  rw [hN, cassert_ok (by simp), ok_bind]
  unfold denseFill
  rw [forLoop_step (by simp), rd_ok (by simp), ok_bind]
  simp only [List.getElem_cons_zero, NZ.toEnt, id_eq]
  have hm : mulM (K * K) 1 (K + 1) = K + 1 := by unfold mulM; rw [Nat.one_mul, Nat.mod_eq_of_lt (by omega)]
  rw [hm, addM_eq (by omega)]
  simp [Buf.put, Buf.filled]

example : InRange (ents [(⟨2, 1, 5⟩ : Ent Int), ⟨0, 3, 2⟩, ⟨0, 0, 7⟩]) 3 4 ∧
    Distinct (ents [(⟨2, 1, 5⟩ : Ent Int), ⟨0, 3, 2⟩, ⟨0, 0, 7⟩]) ∧ 3 * 4 < 2 ^ 32 := by decide

/-! ### C06 -/

/-- **C06.** `Coo_to_CrCsr` never has a defined result: for every input array, every row count and
both entry points the run stops with an error (out of bounds for an empty array or a zero row
count, otherwise a read of the uninitialised row pointers). -/
theorem C06_crcsr_never_defined (M : Nat) (es : List ε) (nnzrows : Nat) :
    (∃ e, (cooToCrCsrN M es nnzrows : C (CrCsr T × List ε)) = .error e) ∧
    (∃ e, (cooToCrCsr M es : C (CrCsr T × List ε)) = .error e) ∧
    (es ≠ [] → 0 < nnzrows → nnzrows + 1 < M →
      (cooToCrCsrN M es nnzrows : C (CrCsr T × List ε)) = .error .uninit) := by
  have hlenE := length_sortTriplets es true
  have key : ∀ n, (∃ e, (cooToCrCsrN M es n : C (CrCsr T × List ε)) = .error e) ∧
      (es ≠ [] → 0 < n → n + 1 < M →
        (cooToCrCsrN M es n : C (CrCsr T × List ε)) = .error .uninit) := by
    intro n
    unfold cooToCrCsrN crcsrBuild
    simp only
    by_cases hne : es = []
    · subst hne
      have : sortTriplets ([] : List ε) = [] := List.length_eq_zero_iff.1 (by simpa using hlenE)
      rw [this]
      exact ⟨⟨.oob, rfl⟩, fun h => absurd rfl h⟩
    · have hpos : 0 < (sortTriplets es).length := by
        rw [hlenE]; exact List.length_pos_iff.2 hne
      generalize sortTriplets es = L at *
      rw [rd_ok hpos, ok_bind]
      rcases Nat.eq_zero_or_pos n with h0 | hn
      · subst h0
        refine ⟨⟨.oob, ?_⟩, fun _ h => absurd h (by omega)⟩
        simp [Buf.put, Buf.uninit]
      · rw [Buf.put_ok (by exact hn), ok_bind, forLoop_step hpos]
        have hstep : ∀ rp : Buf Nat, (∀ k, rp.dat k = none) →
            (crFillStep M L 0 (⟨Buf.uninit L.length, Buf.uninit L.length,
              ⟨(Buf.uninit n : Buf Nat).len, fun k => if k = 0 then some (NZ.toEnt L[0]).row else (Buf.uninit n : Buf Nat).dat k⟩,
              rp, 0⟩ : CrFill T)) = (if addM M 0 1 < rp.len then .error .uninit else .error .oob) := by
          intro rp hrp
          unfold crFillStep
          rw [rd_ok hpos, ok_bind]
          simp only
          rw [Buf.put_ok (by exact hpos), ok_bind, Buf.put_ok (by exact hpos), ok_bind,
            Buf.get_ok (a := (NZ.toEnt L[0]).row) (by exact hn) (by simp), ok_bind]
          simp only [ne_eq, not_true_eq_false, if_false, ok_bind]
          unfold incr Buf.get
          rw [hrp]
          split <;> rfl
        rw [hstep _ (fun _ => rfl)]
        refine ⟨?_, ?_⟩
        · split
          · exact ⟨.uninit, rfl⟩
          · exact ⟨.oob, rfl⟩
        · intro _ _ hM
          rw [if_pos]
          · rfl
          · rw [addM_eq (by omega)]
            show 0 + 1 < addM M n 1
            rw [addM_eq hM]; omega
  refine ⟨(key nnzrows).1, ?_, (key nnzrows).2⟩
  unfold cooToCrCsr cooToCrCsrOn
  cases h : countNnzRows M es with
  | error e => exact ⟨e, rfl⟩
  | ok n => exact (key n).1

/-- C06: what the format would give if line 41 zeroed the array and the row count were taken from
the sorted array: the exact product.  This is about a repaired constructor, not the code as
written, hence partial. -/
theorem C06_crcsr_zeroed [Add T] [Mul T] (M rows columns : Nat) (es : List ε) (hne : es ≠ [])
    (hM : es.length + 1 < M) (hin : InRange (ents es) rows columns) (x y : Nat → T) :
    ∃ n A es', countNnzRows M (sortTriplets es) = .ok n ∧
      crcsrBuild M (Buf.filled (n + 1) 0) es n = .ok (A, es') ∧
      A.spmv (Buf.full columns x) (Buf.full rows y) = .ok (Buf.full rows (spmvExact (ents es) x y)) := by
  have hlenE := length_sortTriplets es true
  have hne' : sortTriplets es ≠ [] := by
    intro h; rw [h] at hlenE; simp at hlenE; exact hne (List.length_eq_zero_iff.1 hlenE.symm)
  have hp := ents_perm (sortTriplets_perm es true)
  refine ⟨_, _, _, countNnzRows_spec M _ hne' (by omega), crcsrBuild_spec M es hne hM, ?_⟩
  rw [crcsr_spmv_spec _ (sortTriplets_sorted es) (fun e he => (hin e (hp.mem_iff.1 he)).2)
    (fun e he => (hin e (hp.mem_iff.1 he)).1), sortTriplets_exact]

example : [(⟨2, 1, 5⟩ : Ent Int), ⟨0, 3, 2⟩] ≠ [] ∧
    InRange (ents [(⟨2, 1, 5⟩ : Ent Int), ⟨0, 3, 2⟩]) 3 4 := by decide

/-! ### C07 -/

/-- **C07**, whatever the width: `Coo_to_Cswr` succeeds, the input is only reordered, and the product is that of the
entries with the row's position in its wide row taken modulo `S` (`S` = number of values of the small row index type),
added in the order of the sorted array. -/
theorem C07_cswr_any [Add T] [Mul T] (M S rows columns width : Nat) (es : List ε)
    (hw : 0 < width) (hnnz : es.length < M) (hrows : rows + width < M)
    (hin : InRange (ents es) rows columns) (x y : Nat → T) :
    ∃ A es', cooToCswr M S es rows columns width = .ok (A, es') ∧ es'.Perm es ∧ A.nnz = es.length ∧
      (ents es').Pairwise (fun a b => a.row / width < b.row / width ∨ (a.row / width = b.row / width ∧
        (a.col < b.col ∨ (a.col = b.col ∧ a.row ≤ b.row)))) ∧
      A.spmv M (Buf.full columns x) (Buf.full rows y) = .ok (Buf.full rows (spmvInOrder
        ((ents es').map (fun e => ⟨width * (e.row / width) + e.row % width % S, e.col, e.val⟩)) x y)) := by
  have hp : (sortTripletsWide width es).Perm es := List.mergeSort_perm _ _
  have hpe := ents_perm hp
  have hle : ∀ r, width * (r / width) + r % width % S ≤ r := by
    intro r
    have h1 := Nat.div_add_mod r width
    have h2 := Nat.mod_le (r % width) S
    omega
  have h1 := Nat.div_add_mod (rows + width - 1) width
  have h2 := Nat.mod_lt (rows + width - 1) hw
  refine ⟨_, _, cooToCswr_spec M S es rows columns width hw hnnz hrows (fun e he => (hin e he).1), hp,
    hp.length_eq, ?_, ?_⟩
  · have := List.pairwise_mergeSort (totalPre_wide (ε := ε) width).trans (totalPre_wide width).total es
    refine List.pairwise_map.2 (List.Pairwise.imp ?_ this)
    intro a b h
    rw [leOf_ltWide] at h
    simpa only [decide_eq_true_eq] using h
  rw [cswrOf_spmv M S _ rows columns width _ hw (by rw [hp.length_eq]; exact hnnz) (by omega)
    (sortWide_sorted width es) ?_ (fun e he => (hin e (hpe.mem_iff.1 he)).2)
    (fun e he => Nat.lt_of_le_of_lt (hle _) (hin e (hpe.mem_iff.1 he)).1)]
  intro e he
  have := (hin _ (List.mem_map_of_mem (hp.mem_iff.1 he))).1
  rw [Nat.div_lt_iff_lt_mul hw]
  rw [Nat.mul_comm] at h1
  omega

/-- **C07**, in a commutative monoid: the product of the entries moved to the rows they are taken for. -/
theorem C07_cswr_any_sum [AddCommMonoid T] [Mul T] (M S rows columns width : Nat) (es : List ε)
    (hw : 0 < width) (hnnz : es.length < M) (hrows : rows + width < M)
    (hin : InRange (ents es) rows columns) (x y : Nat → T) :
    ∃ A es', cooToCswr M S es rows columns width = .ok (A, es') ∧
      A.spmv M (Buf.full columns x) (Buf.full rows y) = .ok (Buf.full rows (spmvSum
        ((ents es).map (fun e => ⟨width * (e.row / width) + e.row % width % S, e.col, e.val⟩)) x y)) := by
  obtain ⟨A, es', h1, h2, -, -, h3⟩ := C07_cswr_any M S rows columns width es hw hnnz hrows hin x y
  refine ⟨A, es', h1, ?_⟩
  rw [h3, spmvInOrder_eq_sum, spmvSum_perm ((ents_perm h2).map _)]

/-- **C07.** For every width `0 < width ≤ S` (`S` = number of values of the small row index type)
`Coo_to_Cswr` succeeds and the product is the exact one. -/
theorem C07_cswr_spmv [Add T] [Mul T] (M S rows columns width : Nat) (es : List ε)
    (hw : 0 < width) (hwS : width ≤ S) (hnnz : es.length < M) (hrows : rows + width < M)
    (hin : InRange (ents es) rows columns) (x y : Nat → T) :
    ∃ A es', cooToCswr M S es rows columns width = .ok (A, es') ∧ es'.Perm es ∧ A.nnz = es.length ∧
      A.spmv M (Buf.full columns x) (Buf.full rows y) =
        .ok (Buf.full rows (spmvExact (ents es) x y)) := by
  have hp : (sortTripletsWide width es).Perm es := List.mergeSort_perm _ _
  obtain ⟨A, es', e1, e2, e3, -, e5⟩ := C07_cswr_any M S rows columns width es hw hnnz hrows hin x y
  have hes : es' = sortTripletsWide width es := by
    rw [cooToCswr_spec M S es rows columns width hw hnnz hrows (fun e he => (hin e he).1)] at e1
    cases e1; rfl
  subst hes
  have hid : ∀ r, width * (r / width) + r % width % S = r := by
    intro r
    rw [Nat.mod_eq_of_lt (a := r % width) (Nat.lt_of_lt_of_le (Nat.mod_lt _ hw) hwS)]
    exact Nat.div_add_mod r width
  refine ⟨A, _, e1, e2, e3, ?_⟩
  rw [e5]
  have : (ents (sortTripletsWide width es)).map (fun e : Ent T =>
      (⟨width * (e.row / width) + e.row % width % S, e.col, e.val⟩ : Ent T)) =
      ents (sortTripletsWide width es) := by
    conv => rhs; rw [← List.map_id (ents (sortTripletsWide width es))]
    refine List.map_congr_left (fun e _ => ?_)
    rw [hid]; rfl
  rw [this, sortWide_exact]

/-- **C07**, the boundary: for every wider row group (`width > S`) an in-range entry in row `S` passes
every check but is accumulated into row 0. -/
theorem C07_cswr_truncation [Add T] [Mul T] (M S width : Nat) (hS : 0 < S) (hw : S < width)
    (hM : S + 1 + width < M) (v : T) (x y : Nat → T) :
    InRange [(⟨S, 0, v⟩ : Ent T)] (S + 1) 1 ∧
    ∃ A es', cooToCswr M S [(⟨S, 0, v⟩ : Ent T)] (S + 1) 1 width = .ok (A, es') ∧
      A.spmv M (Buf.full 1 x) (Buf.full (S + 1) y) =
        .ok (Buf.full (S + 1) (spmvExact [(⟨0, 0, v⟩ : Ent T)] x y)) := by
  refine ⟨by intro e he; simp at he; subst he; simp, _, _,
    cooToCswr_spec M S [(⟨S, 0, v⟩ : Ent T)] (S + 1) 1 width (by omega) (by simp; omega) hM (by
      intro e he; simp [ents, NZ.toEnt] at he; subst he; simp), ?_⟩
  have hsort : sortTripletsWide width [(⟨S, 0, v⟩ : Ent T)] = [⟨S, 0, v⟩] := by
    simp [sortTripletsWide, pssSort]
  have h1 := Nat.div_add_mod (S + 1 + width - 1) width
  have hd0 : S / width = 0 := Nat.div_eq_of_lt hw
  have hm0 : S % width % S = 0 := by rw [Nat.mod_eq_of_lt hw, Nat.mod_self]
  rw [hsort, cswrOf_spmv M S _ (S + 1) 1 width _ (by omega) (by simp; omega) (by omega) (by simp)]
  · congr 2
    simp only [ents, NZ.toEnt, List.map_cons, List.map_nil, id_eq, hd0, hm0, Nat.mul_zero, Nat.add_zero]
    funext i
    unfold spmvInOrder spmvExact rowByColumn rowEntries
    by_cases h : (0:Nat) = i
    · subst h; simp
    · simp [h]
  · intro e he
    simp at he; subst he
    simp only [NZ.toEnt, id_eq, hd0]
    exact Nat.div_pos (by omega) (by omega)
  · intro e he
    simp [ents, NZ.toEnt] at he; subst he; simp
  · intro e he
    simp [ents, NZ.toEnt] at he; subst he
    simp only [hd0, hm0]; omega

/-- **C07**: width 0 divides by zero. -/
theorem C07_cswr_zero_width (M S rows columns : Nat) (es : List ε) :
    (cooToCswr M S es rows columns 0 : C (Cswr T × List ε)) = .error .divZero := rfl

example : (0 < 32 ∧ 32 ≤ 2 ^ 16) ∧ 3 + 32 < 2 ^ 32 ∧
    InRange (ents [(⟨2, 1, 5⟩ : Ent Int), ⟨0, 3, 2⟩, ⟨2, 1, 1⟩]) 3 4 := by decide

end Gsb
