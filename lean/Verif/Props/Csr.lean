import Verif.Proof.Csr2
/-
Properties C01, C02, C03: the CSR formats.
-/
namespace Gsb
variable {ε T : Type} [NZ ε T]

/-- **C01.** For any input array (any order, duplicates allowed) whose entries are in range, and
index type with `M` values that can hold `rows + 1`, `columns` and the number of entries:
`Coo_to_Csr` runs without error, `spmv` and `spmv_serial` run without error, and both leave in `y`
exactly `spmvExact`: each `y[i]` plus row `i`'s products by increasing column.  `x` and `y` may be
longer than needed; cells of `y` outside the matrix keep their value (`spmvExact` has no entries there). -/
theorem C01_csr_spmv [Add T] [Mul T] (M rows columns : Nat) (es : List ε)
    (hnnz : es.length < M) (hrows : rows + 1 < M) (hcols : columns < M)
    (hin : InRange (ents es) rows columns)
    (nx ny : Nat) (hnx : columns ≤ nx) (hny : rows ≤ ny) (x y : Nat → T) :
    ∃ A es', cooToCsr M es rows columns = .ok (A, es') ∧
      A.spmv (Buf.full nx x) 0 (Buf.full ny y) 0 = .ok (Buf.full ny (spmvExact (ents es) x y)) ∧
      A.spmvSerial (Buf.full nx x) 0 (Buf.full ny y) 0 =
        .ok (Buf.full ny (spmvExact (ents es) x y)) := by
  have hrow : ∀ e ∈ sortTriplets es, (NZ.toEnt e).row < rows := fun e he =>
    (hin _ (List.mem_map_of_mem (mem_sortTriplets.1 he))).1
  have hcol : ∀ e ∈ ents (sortTriplets es), e.col < columns := fun e he =>
    (hin _ ((ents_perm (sortTriplets_perm es true)).mem_iff.1 he)).2
  refine ⟨csrOf M (sortTriplets es) rows columns, sortTriplets es, ?_, ?_, ?_⟩
  · unfold cooToCsr
    simp only [Bool.false_eq_true, if_false]
    rw [csrBuild_spec M M _ rows columns (by rw [length_sortTriplets]; exact hnnz) hrows hrow, ok_bind]
  all_goals
    have R := csrOf_rep M (sortTriplets es) rows columns hrow (sortTriplets_sorted es)
    rw [truncCols_eq (fun e he => Nat.lt_trans (hcol e he) hcols)] at R
  · unfold Csr.spmv
    have := spmvCsr_spec R (nx := nx) (ny := ny) (xo := 0) (yo := 0) x y
      (fun e he => by have := hcol e he; omega) (by omega)
    rw [shift_zero, sortTriplets_exact] at this
    exact this
  · unfold Csr.spmvSerial
    have := spmvCsrSerial_spec R (nx := nx) (ny := ny) (xo := 0) (yo := 0) x y
      (fun e he => by have := hcol e he; omega) (by omega)
    rw [shift_zero, sortTriplets_exact] at this
    exact this

/-- C01 in a semiring: `y` becomes `y + A x` for the matrix `A` the entries denote. -/
theorem C01_csr_mulVec [NonUnitalNonAssocSemiring T] (M rows columns : Nat) (es : List ε)
    (hnnz : es.length < M) (hrows : rows + 1 < M) (hcols : columns < M)
    (hin : InRange (ents es) rows columns) (x y : Nat → T) :
    ∃ A es' y', cooToCsr M es rows columns = .ok (A, es') ∧
      A.spmv (Buf.full columns x) 0 (Buf.full rows y) 0 = .ok (Buf.full rows y') ∧
      ∀ i : Fin rows, y' i = y i + (toMatrix (ents es) rows columns).mulVec (fun j => x j) i := by
  obtain ⟨A, es', h1, h2, -⟩ := C01_csr_spmv M rows columns es hnnz hrows hcols hin columns rows
    (Nat.le_refl _) (Nat.le_refl _) x y
  refine ⟨A, es', _, h1, h2, fun i => ?_⟩
  rw [spmvExact_eq_sum, spmvSum_eq_mulVec _ rows columns hin]

/-- A 3×4 matrix given out of order with a duplicated coordinate meets the hypotheses. -/
example : InRange (ents [(⟨2, 1, 5⟩ : Ent Int), ⟨0, 3, 2⟩, ⟨0, 0, 7⟩, ⟨2, 1, -1⟩]) 3 4 ∧
    ([(⟨2, 1, 5⟩ : Ent Int), ⟨0, 3, 2⟩, ⟨0, 0, 7⟩, ⟨2, 1, -1⟩]).length < 2 ^ 32 ∧ 3 + 1 < 2 ^ 32 ∧
    spmvExact (ents [(⟨2, 1, 5⟩ : Ent Int), ⟨0, 3, 2⟩, ⟨0, 0, 7⟩, ⟨2, 1, -1⟩])
      (fun j => 10 + j) (fun _ => 1) 2 = 45 := by
  refine ⟨by decide, by decide, by decide, ?_⟩
  simp [spmvExact, rowByColumn, rowEntries, ents, NZ.toEnt, accumulate, List.mergeSort]

/-- **C02.** The same for the pair-array format `Csr2`. -/
theorem C02_csr2_spmv [Add T] [Mul T] (M rows columns : Nat) (es : List ε)
    (hnnz : es.length < M) (hrows : rows + 1 < M)
    (hin : InRange (ents es) rows columns)
    (nx ny : Nat) (hnx : columns ≤ nx) (hny : rows ≤ ny) (x y : Nat → T) :
    ∃ A es', cooToCsr2 M es rows columns = .ok (A, es') ∧
      A.spmv (Buf.full nx x) (Buf.full ny y) = .ok (Buf.full ny (spmvExact (ents es) x y)) ∧
      A.spmvSerial (Buf.full nx x) (Buf.full ny y) = .ok (Buf.full ny (spmvExact (ents es) x y)) := by
  have hrow : ∀ e ∈ es, (NZ.toEnt e).row < rows := fun e he =>
    (hin _ (List.mem_map_of_mem he)).1
  have hcol : ∀ e ∈ ents (sortTriplets es), e.col < columns := fun e he =>
    (hin _ ((ents_perm (sortTriplets_perm es true)).mem_iff.1 he)).2
  have hrow' : ∀ e ∈ ents (sortTriplets es), e.row < rows := fun e he =>
    (hin _ ((ents_perm (sortTriplets_perm es true)).mem_iff.1 he)).1
  refine ⟨_, _, cooToCsr2_spec M es rows columns false hnnz hrows hrow, ?_, ?_⟩
  · simp only [Bool.false_eq_true, if_false]
    rw [csr2_spmv_spec (sortTriplets_sorted es) hrow' (fun e he => Nat.lt_of_lt_of_le (hcol e he) hnx) hny x y,
      sortTriplets_exact]
  · simp only [Bool.false_eq_true, if_false]
    rw [csr2_spmvSerial_spec (sortTriplets_sorted es) hrow'
      (fun e he => Nat.lt_of_lt_of_le (hcol e he) hnx) hny x y, sortTriplets_exact]

/-- **C03**, whatever the columns are: a CSR block with column indices stored in a type of `S` values, built
from entries sorted by row, adds each row's products in the order given, every column taken modulo `S`; at any
offsets `xo`, `yo` into the vectors. -/
theorem C03_blockcsr_any [Add T] [Mul T] (M S rows columns : Nat) (es : List ε)
    (hnnz : es.length < M) (hrows : rows + 1 < M)
    (hin : InRange (ents es) rows columns)
    (hsorted : es.Pairwise (fun a b => (NZ.toEnt a).row ≤ (NZ.toEnt b).row))
    (nx ny xo yo : Nat) (hnx : xo + columns ≤ nx) (hny : yo + rows ≤ ny) (x y : Nat → T) :
    ∃ A es', cooToBlockCsr M S es rows columns = .ok (A, es') ∧
      (∀ spmv ∈ [A.spmv, A.spmvSerial],
        ∃ y', spmv (Buf.full nx x) xo (Buf.full ny y) yo = .ok (Buf.full ny y') ∧
        (∀ i, y' (yo + i) = spmvInOrder ((ents es).map (fun e => ⟨e.row, e.col % S, e.val⟩))
          (fun j => x (xo + j)) (fun i => y (yo + i)) i) ∧
        (∀ i, i < yo ∨ yo + rows ≤ i → y' i = y i)) := by
  have hrow : ∀ e ∈ es, (NZ.toEnt e).row < rows := fun e he => (hin _ (List.mem_map_of_mem he)).1
  refine ⟨csrOf S es rows columns, es, ?_, ?_⟩
  · unfold cooToBlockCsr
    simp only [if_true]
    rw [csrBuild_spec M S _ rows columns hnnz hrows hrow, ok_bind]
  have R := csrOf_rep S es rows columns hrow hsorted
  have hin' : InRange (truncCols S (ents es)) rows columns := by
    intro e he
    obtain ⟨a, ha, rfl⟩ := List.mem_map.1 he
    exact ⟨(hin a ha).1, Nat.lt_of_le_of_lt (Nat.mod_le _ _) (hin a ha).2⟩
  have key : ∀ i, spmvInOrder (shift yo xo (truncCols S (ents es))) x y (yo + i) =
      spmvInOrder (truncCols S (ents es)) (fun j => x (xo + j)) (fun i => y (yo + i)) i := by
    intro i
    generalize truncCols S (ents es) = L
    unfold spmvInOrder rowEntries shift accumulate
    rw [List.filter_map, List.foldl_map]
    congr 1
    congr 1
    funext e
    simp
  have key2 : ∀ i, i < yo ∨ yo + rows ≤ i → spmvInOrder (shift yo xo (truncCols S (ents es))) x y i = y i := by
    intro i hi
    generalize truncCols S (ents es) = L at hin'
    unfold spmvInOrder rowEntries shift accumulate
    rw [List.filter_eq_nil_iff.2]
    · rfl
    · intro e he
      obtain ⟨a, ha, rfl⟩ := List.mem_map.1 he
      have := (hin' a ha).1
      simp; omega
  intro spmv hspmv
  simp only [List.mem_cons, List.not_mem_nil, or_false] at hspmv
  rcases hspmv with rfl | rfl
  · exact ⟨_, spmvCsr_spec R x y (fun e he => by have := (hin' e he).2; omega) hny, key, key2⟩
  · exact ⟨_, spmvCsrSerial_spec R x y (fun e he => by have := (hin' e he).2; omega) hny, key, key2⟩

/-- **C03.** A CSR block with column indices stored in a type of `S` values, built from entries
sorted by row whose columns fit, adds each row's products in the order given; at any offsets
`xo`, `yo` into the vectors. -/
theorem C03_blockcsr_spmv [Add T] [Mul T] (M S rows columns : Nat) (es : List ε)
    (hnnz : es.length < M) (hrows : rows + 1 < M)
    (hin : InRange (ents es) rows columns) (hfit : ∀ e ∈ ents es, e.col < S)
    (hsorted : es.Pairwise (fun a b => (NZ.toEnt a).row ≤ (NZ.toEnt b).row))
    (nx ny xo yo : Nat) (hnx : xo + columns ≤ nx) (hny : yo + rows ≤ ny) (x y : Nat → T) :
    ∃ A es', cooToBlockCsr M S es rows columns = .ok (A, es') ∧
      (∀ spmv ∈ [A.spmv, A.spmvSerial],
        ∃ y', spmv (Buf.full nx x) xo (Buf.full ny y) yo = .ok (Buf.full ny y') ∧
        (∀ i, y' (yo + i) = spmvInOrder (ents es) (fun j => x (xo + j)) (fun i => y (yo + i)) i) ∧
        (∀ i, i < yo ∨ yo + rows ≤ i → y' i = y i)) := by
  have h := C03_blockcsr_any M S rows columns es hnnz hrows hin hsorted nx ny xo yo hnx hny x y
  have e : (ents es).map (fun e : Ent T => (⟨e.row, e.col % S, e.val⟩ : Ent T)) = ents es := truncCols_eq hfit
  rwa [e] at h

example : InRange (ents [(⟨0, 3, 2⟩ : Ent Int), ⟨0, 0, 7⟩, ⟨2, 1, 5⟩]) 3 4 ∧
    (∀ e ∈ ents [(⟨0, 3, 2⟩ : Ent Int), ⟨0, 0, 7⟩, ⟨2, 1, 5⟩], e.col < 2 ^ 16) ∧
    [(⟨0, 3, 2⟩ : Ent Int), ⟨0, 0, 7⟩, ⟨2, 1, 5⟩].Pairwise
      (fun a b => (NZ.toEnt a : Ent Int).row ≤ (NZ.toEnt b).row) := by decide

/-- C03, the boundary: the first column that does not fit is stored as column 0, with no error
reported by the constructor, so the block multiplies with the wrong component of `x`. -/
theorem C03_blockcsr_truncation [Add T] [Mul T] (M S : Nat) (hM : 2 < M) (v : T)
    (x y : Nat → T) :
    ∃ A es', cooToBlockCsr M S [(⟨0, S, v⟩ : Ent T)] 1 (S + 1) = .ok (A, es') ∧
      A.spmv (Buf.full (S + 1) x) 0 (Buf.full 1 y) 0 =
        .ok (Buf.full 1 (spmvExact [⟨0, 0, v⟩] x y)) := by
  refine ⟨csrOf S [(⟨0, S, v⟩ : Ent T)] 1 (S + 1), [(⟨0, S, v⟩ : Ent T)], ?_, ?_⟩
  · unfold cooToBlockCsr
    simp only [if_true]
    rw [csrBuild_spec M S _ 1 (S + 1) (by simp; omega) hM (by intro e he; simp at he; subst he; exact Nat.zero_lt_one),
      ok_bind]
  · have R := csrOf_rep S [(⟨0, S, v⟩ : Ent T)] 1 (S + 1)
      (by intro e he; simp at he; subst he; exact Nat.zero_lt_one) (by simp)
    have e : truncCols S (ents [(⟨0, S, v⟩ : Ent T)]) = [⟨0, 0, v⟩] := by
      simp [truncCols, ents, NZ.toEnt]
    rw [e] at R
    have := spmvCsr_spec R (nx := S + 1) (ny := 1) (xo := 0) (yo := 0) x y (by simp) (by omega)
    rw [shift_zero] at this
    unfold Csr.spmv
    rw [show (csrOf S [(⟨0, S, v⟩ : Ent T)] 1 (S + 1)).rows = 1 from rfl, this]
    congr 2
    funext i
    unfold spmvInOrder spmvExact rowByColumn rowEntries
    by_cases h : (0:Nat) = i
    · subst h; simp
    · simp [h]

end Gsb
