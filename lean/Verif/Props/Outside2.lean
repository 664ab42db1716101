import Verif.Props.Outside
/-
C85, continued: where an entry outside the matrix is not noticed.
-/
namespace Gsb
variable {T : Type}

/-! ### The largest row number in CSR -/

/-- `spmv_csr` on a row pointer array that already contains the base. -/
theorem spmvCsr_based [Add T] [Mul T] {L : List (Ent T)} {base rows : Nat} {rp rp' ci : Buf Nat} {v : Buf T}
    (R : CsrRep L base rows rp ci v) (hlen : rows < rp'.len)
    (hdat : ∀ i, i ≤ rows → rp'.dat i = some (base + L.countP (fun e => decide (e.row < i))))
    {nx ny xo yo : Nat} (x y : Nat → T)
    (hx : ∀ e ∈ L, xo + e.col < nx) (hy : yo + rows ≤ ny) :
    spmvCsr rp' ci v 0 rows (Buf.full nx x) xo (Buf.full ny y) yo =
      .ok (Buf.full ny (spmvInOrder (shift yo xo L) x y)) := by
  unfold spmvCsr
  refine forLoop_closed' (fun i =>
    Buf.full ny (visit x y (shift yo xo (L.take (L.countP (fun e => decide (e.row < i)))))))
    (Nat.zero_le _) ?_ ?_ ?_
  · simp [visit, shift]
  · rw [countP_lt_all L (·.row) rows R.range, List.take_length, visit_eq]
  · intro i _ hi
    unfold spmvCsrRow
    rw [Buf.get_ok (by omega) (hdat i (by omega)), ok_bind, Buf.get_ok (by omega) (hdat (i+1) (by omega)), ok_bind, forLoop_shift]
    have hin : (fun j => csrInner ci v 0 (Buf.full nx x) xo (yo + i) (base + j)) =
        csrInner ci v base (Buf.full nx x) xo (yo + i) := by
      funext j y; simp [csrInner]
    rw [hin, csrInner_slice R x _ hx hy hi rfl rfl, ← visit_append, ← shift_append,
      take_drop_append L (countP_lt_mono L (·.row) (by omega))]

theorem psum_key {α : Type} (l : List α) (f : α → Nat) (k : Nat) :
    psum (fun k => l.countP (fun e => f e == k)) k = l.countP (fun e => decide (f e ≤ k)) := by
  induction k with
  | zero =>
    rw [psum]
    refine List.countP_congr fun e _ => ?_
    simp
  | succ k ih =>
    rw [psum, ih]
    clear ih
    induction l with
    | nil => rfl
    | cons a l ih =>
      simp only [List.countP_cons]
      have : (if decide (f a ≤ k) then 1 else 0) + (if f a == k + 1 then 1 else 0)
          = (if decide (f a ≤ k + 1) then 1 else 0) := by
        by_cases h1 : f a ≤ k
        · have h2 : ¬ f a = k + 1 := by omega
          have h3 : f a ≤ k + 1 := by omega
          simp [h1, h2, h3]
        · by_cases h2 : f a = k + 1
          · simp [h2]
          · have h3 : ¬ f a ≤ k + 1 := by omega
            simp [h1, h2, h3]
      omega

theorem incr_key {α : Type} {M len : Nat} (l : List α) (f : α → Nat) (a : α) (hk : f a < len) (hM : l.length + 1 < M) :
    incr M (Buf.full len (fun k => l.countP (fun e => f e == k))) (f a) =
      .ok (Buf.full len (fun k => (l ++ [a]).countP (fun e => f e == k))) := by
  rw [incr_full _ hk (by have := List.countP_le_length (p := fun e => f e == f a) (l := l); omega)]
  congr 2; funext i
  rw [List.countP_append, List.countP_singleton]
  by_cases h : i = f a
  · subst h; simp
  · have : ¬ f a = i := fun hh => h hh.symm
    simp [h, this]

section
variable {ε : Type} [NZ ε T]

theorem csrFill_key (M S : Nat) (es : List ε) (rows : Nat)
    (hM : es.length + 1 < M) (hr : rows + 1 < M) (hrow : ∀ e ∈ es, addM M (NZ.toEnt e).row 1 ≤ rows) :
    forLoop 0 es.length
      ((Buf.uninit es.length : Buf Nat), (Buf.uninit es.length : Buf T), Buf.filled (addM M rows 1) 0)
      (csrFillStep M S es) =
    .ok (⟨es.length, fun k => (es[k]?).map (fun e => (NZ.toEnt e).col % S)⟩,
         ⟨es.length, fun k => (es[k]?).map (fun e => (NZ.toEnt e).val)⟩,
         Buf.full (rows + 1) (fun k => es.countP (fun e => addM M (NZ.toEnt e).row 1 == k))) := by
  refine forLoop_closed' (fun i =>
    ((⟨es.length, fun k => ((es.take i)[k]?).map (fun e => (NZ.toEnt e).col % S)⟩ : Buf Nat),
     (⟨es.length, fun k => ((es.take i)[k]?).map (fun e => (NZ.toEnt e).val)⟩ : Buf T),
     Buf.full (rows + 1) (fun k => (es.take i).countP (fun e => addM M (NZ.toEnt e).row 1 == k))))
    (Nat.zero_le _) ?_ ?_ ?_
  · simp [Buf.uninit, Buf.filled, Buf.full, addM_eq hr]
  · simp
  · intro i _ hi
    have hlen : (es.take i).length = i := by simp; omega
    have htake : es.take (i + 1) = es.take i ++ [es[i]] := by
      rw [List.take_add_one]; simp [hi]
    have hri := hrow _ (List.getElem_mem hi)
    unfold csrFillStep
    rw [rd_ok hi, ok_bind]
    simp only
    rw [fill_put (es.take i) (fun e => (NZ.toEnt e).col % S) es[i] hlen hi, ok_bind,
      fill_put (es.take i) (fun e => (NZ.toEnt e).val) es[i] hlen hi, ok_bind,
      incr_key (es.take i) (fun e => addM M (NZ.toEnt e).row 1) es[i] (by omega) (by omega), ok_bind, htake]

/-- Each entry takes the column and the value of the entry `k` places further on; the last `k` have none. -/
def pulledUp (k : Nat) (L : List (Ent T)) : List (Ent T) := List.zipWith (fun a b => ⟨a.row, b.col, b.val⟩) L (L.drop k)

/-- **C85**, the gap in CSR: `k` entries carry the largest row number of the index type — what the MatrixMarket reader makes of a row
index 0 — and all others are inside the matrix.  The conversion reports nothing.  In the row-sorted array each entry is then
multiplied as the one `k` places further on, so the first `k` entries are lost, and every other one may act in a wrong row. -/
theorem C85_csr_last_row [Add T] [Mul T] (M rows columns : Nat) (es : List ε) (hnnz : es.length + 1 < M) (hrows : rows + 1 < M)
    (hcols : columns < M) (hidx : ∀ e ∈ ents es, (e.row < rows ∨ e.row = M - 1) ∧ e.col < columns) (x y : Nat → T) :
    ∃ A, cooToCsr M es rows columns = .ok (A, sortTriplets es) ∧
      A.spmv (Buf.full columns x) 0 (Buf.full rows y) 0 =
        .ok (Buf.full rows (spmvInOrder (pulledUp ((ents es).countP (fun e => e.row == M - 1)) (ents (sortTriplets es))) x y)) ∧
      A.spmvSerial (Buf.full columns x) 0 (Buf.full rows y) 0 =
        .ok (Buf.full rows (spmvInOrder (pulledUp ((ents es).countP (fun e => e.row == M - 1)) (ents (sortTriplets es))) x y)) := by
  have hp := ents_perm (sortTriplets_perm es true)
  have hlen := length_sortTriplets es true
  rw [← hp.countP_eq]
  replace hidx : ∀ e ∈ ents (sortTriplets es), (e.row < rows ∨ e.row = M - 1) ∧ e.col < columns := fun e he =>
    hidx e (hp.mem_iff.1 he)
  have hs : (ents (sortTriplets es)).Pairwise (fun a b => a.row ≤ b.row) := by
    unfold ents
    rw [List.pairwise_map]
    exact sortTriplets_sorted es
  unfold cooToCsr
  simp only [Bool.false_eq_true, if_false]
  set L0 := sortTriplets es with hL0
  set L := ents L0 with hL
  set k := L.countP (fun e => e.row == M - 1) with hk
  have hLl : L.length = L0.length := by rw [hL]; simp [ents]
  have hkey : ∀ e ∈ L, addM M e.row 1 ≤ rows ∧ ∀ i, i ≤ rows → (addM M e.row 1 ≤ i ↔ e.row < i ∨ e.row = M - 1) := by
    intro e he
    rcases (hidx e he).1 with h | h
    · rw [addM_eq (by omega)]
      refine ⟨by omega, fun i hi => by omega⟩
    · have : addM M e.row 1 = 0 := by
        unfold addM
        rw [h, Nat.sub_add_cancel (by omega), Nat.mod_self]
      rw [this]
      refine ⟨by omega, fun i hi => by omega⟩
  have hcount : ∀ i, i ≤ rows → L.countP (fun e => decide (addM M e.row 1 ≤ i)) = k + L.countP (fun e => decide (e.row < i)) := by
    intro i hi
    have hd : ∀ l : List (Ent T), (∀ e ∈ l, e ∈ L) → l.countP (fun e => decide (addM M e.row 1 ≤ i)) =
        l.countP (fun e => e.row == M - 1) + l.countP (fun e => decide (e.row < i)) := by
      intro l
      induction l with
      | nil => intro _; rfl
      | cons a l ih =>
        intro hl
        simp only [List.countP_cons]
        rw [ih (fun e he => hl e (List.mem_cons_of_mem _ he))]
        have ha := (hkey a (hl a (by simp))).2 i hi
        by_cases h1 : a.row = M - 1
        · have h2 : ¬ a.row < i := by omega
          have h3 : addM M a.row 1 ≤ i := ha.2 (Or.inr h1)
          rw [if_pos (by simpa using h3), if_pos (by simpa using h1), if_neg (by simpa using h2)]
          omega
        · by_cases h2 : a.row < i
          · have h3 : addM M a.row 1 ≤ i := ha.2 (Or.inl h2)
            rw [if_pos (by simpa using h3), if_neg (by simpa using h1), if_pos (by simpa using h2)]
            omega
          · have h3 : ¬ addM M a.row 1 ≤ i := fun h => by rcases ha.1 h with h | h <;> omega
            rw [if_neg (by simpa using h3), if_neg (by simpa using h1), if_neg (by simpa using h2)]
            omega
    exact hd L (fun _ h => h)
  have hall : k + L.countP (fun e => decide (e.row < rows)) = L.length := by
    rw [← hcount rows (Nat.le_refl _), List.countP_eq_length]
    exact fun e he => by simpa using (hkey e he).1
  have hcount0 : ∀ i, i ≤ rows → psum (fun k => L0.countP (fun e => addM M (NZ.toEnt e).row 1 == k)) i =
      k + L.countP (fun e => decide (e.row < i)) := by
    intro i hi
    rw [psum_key L0 (fun e => addM M (NZ.toEnt e).row 1), ← hcount i hi, hL]
    unfold ents
    rw [List.countP_map]
    rfl
  have hb : csrBuild M M L0 rows columns = .ok (⟨⟨L0.length, fun k => (L0[k]?).map (fun e => (NZ.toEnt e).val)⟩,
      ⟨L0.length, fun k => (L0[k]?).map (fun e => (NZ.toEnt e).col % M)⟩,
      Buf.full (rows + 1) (fun i => if i ≤ rows then psum (fun k => L0.countP (fun e => addM M (NZ.toEnt e).row 1 == k)) i
        else L0.countP (fun e => addM M (NZ.toEnt e).row 1 == i)), rows, columns⟩ : Csr T) := by
    unfold csrBuild
    rw [csrFill_key M M L0 rows (by omega) hrows (fun e he => (hkey _ (List.mem_map_of_mem he)).1), ok_bind]
    simp only
    rw [prefixSum_full _ (by omega) (by rw [hcount0 rows (Nat.le_refl _)]; omega), ok_bind, Buf.get_full (by omega), ok_bind,
      if_pos (Nat.le_refl _), hcount0 rows (Nat.le_refl _), hall, hLl]
    simp
  rw [hb, ok_bind]
  refine ⟨_, rfl, ?_⟩
  set c := L.countP (fun e => decide (e.row < rows)) with hc
  have hpl : (pulledUp k L).length = c := by
    unfold pulledUp
    rw [List.length_zipWith, List.length_drop]
    omega
  have hpg : ∀ j (h : j < (pulledUp k L).length), (pulledUp k L)[j] = ⟨(L[j]'(by omega)).row, (L[k + j]'(by omega)).col, (L[k + j]'(by omega)).val⟩ := by
    intro j h
    simp [pulledUp]
  have hpr : ∀ i, i ≤ rows → (pulledUp k L).countP (fun e => decide (e.row < i)) = L.countP (fun e => decide (e.row < i)) := by
    intro i hi
    have h1 : (pulledUp k L).map (·.row) = (L.take c).map (·.row) := by
      refine List.ext_getElem ?_ fun j h h' => ?_
      · rw [List.length_map, List.length_map, hpl, List.length_take]
        omega
      · rw [List.getElem_map, List.getElem_map, hpg j (by simpa using h), List.getElem_take]
    have h2 : ∀ l : List (Ent T), l.countP (fun e => decide (e.row < i)) = (l.map (·.row)).countP (fun r => decide (r < i)) := by
      intro l
      rw [List.countP_map]
      rfl
    have h3 : (L.drop c).countP (fun e => decide (e.row < i)) = 0 := by
      rw [List.countP_eq_zero]
      intro e he
      obtain ⟨j, hj, rfl⟩ := List.getElem_of_mem he
      rw [List.length_drop] at hj
      rw [List.getElem_drop]
      have := mt (getElem_lt_iff L (·.row) hs rows (c + j) (by omega)).1 (by omega)
      simp only [decide_eq_true_eq]
      omega
    rw [h2, h1, ← h2]
    conv => rhs; rw [← List.take_append_drop c L, List.countP_append, h3]
    rfl
  have R : CsrRep (pulledUp k L) k rows (Buf.full (rows + 1) (fun i => L.countP (fun e => decide (e.row < i))))
      (⟨L0.length, fun k => (L0[k]?).map (fun e => (NZ.toEnt e).col % M)⟩ : Buf Nat)
      (⟨L0.length, fun k => (L0[k]?).map (fun e => (NZ.toEnt e).val)⟩ : Buf T) := by
    refine ⟨by simp, fun i hi => by rw [hpr i hi]; rfl, ?_, ?_, ?_, ?_⟩
    · intro j h
      have h1 : k + j < L0.length := by omega
      refine ⟨h1, ?_⟩
      rw [hpg j h]
      simp only
      have h2 := (hidx _ (List.getElem_mem (show k + j < L.length by omega))).2
      rw [List.getElem?_eq_getElem h1, Option.map_some]
      simp only [hL, ents, List.getElem_map] at h2 ⊢
      rw [Nat.mod_eq_of_lt (by omega)]
    · intro j h
      have h1 : k + j < L0.length := by omega
      refine ⟨h1, ?_⟩
      rw [hpg j h]
      simp only
      rw [List.getElem?_eq_getElem h1, Option.map_some]
      simp only [hL, ents, List.getElem_map]
    · rw [List.pairwise_iff_getElem]
      intro i j hi hj hij
      rw [hpg i hi, hpg j hj]
      exact List.pairwise_iff_getElem.1 hs i j (by omega) (by omega) hij
    · intro e he
      obtain ⟨j, hj, rfl⟩ := List.getElem_of_mem he
      rw [hpg j hj]
      exact (getElem_lt_iff L (·.row) hs rows j (by omega)).2 (by omega)
  have hx : ∀ e ∈ pulledUp k L, 0 + e.col < columns := by
    intro e he
    obtain ⟨j, hj, rfl⟩ := List.getElem_of_mem he
    rw [hpg j hj, Nat.zero_add]
    exact (hidx _ (List.getElem_mem _)).2
  have hdat : ∀ i, i ≤ rows → (Buf.full (rows + 1) (fun i => if i ≤ rows then
      psum (fun k => L0.countP (fun e => addM M (NZ.toEnt e).row 1 == k)) i
      else L0.countP (fun e => addM M (NZ.toEnt e).row 1 == i))).dat i =
      some (k + (pulledUp k L).countP (fun e => decide (e.row < i))) := by
    intro i hi
    rw [Buf.full_dat, if_pos hi, hcount0 i hi, hpr i hi]
  refine ⟨?_, ?_⟩
  · have := spmvCsr_based R (by exact Nat.lt_succ_self rows) hdat (xo := 0) (yo := 0) x y hx (by rw [Nat.zero_add])
    rw [shift_zero] at this
    exact this
  · have := spmvCsrSerial_based R (by exact Nat.lt_succ_self rows) hdat (xo := 0) (yo := 0) x y hx (by rw [Nat.zero_add])
    rw [shift_zero] at this
    exact this

end

/-! ### Dense -/

/-- The place in the dense array: columns beyond the last continue in the rows below. -/
def carry (columns : Nat) (e : Ent T) : Ent T := ⟨e.row + e.col / columns, e.col % columns, e.val⟩

theorem denseFill_carry (M columns : Nat) (es : List (Ent T)) (v : Buf T) :
    denseFill M es columns v = denseFill M (es.map (carry columns)) columns v := by
  unfold denseFill
  rw [List.length_map]
  congr 1
  funext i v
  unfold rd
  rw [List.getElem?_map]
  cases es[i]? with
  | none => rfl
  | some e =>
    simp only [Option.map_some, ok_bind]
    congr 1
    unfold addM mulM carry
    simp only [NZ.toEnt, id]
    rw [Nat.mod_add_mod, Nat.mod_add_mod, Nat.add_mul, Nat.add_assoc, Nat.div_add_mod']

/-- **C85**, the gap in the dense formats: an entry whose column is not inside the matrix is stored as if it were in a row below,
without any report; both constructors cannot tell the array from the one with the entries moved. -/
theorem C85_dense_wraps [Zero T] (M rows columns : Nat) (es : List (Ent T)) :
    (mkDense M es rows columns : C (Dense T)) = mkDense M (es.map (carry columns)) rows columns ∧
    (cooToDense M es rows columns : C (Dense T)) = cooToDense M (es.map (carry columns)) rows columns := by
  unfold mkDense cooToDense
  rw [denseFill_carry]
  exact ⟨rfl, rfl⟩

/-! ### CSBR3 -/

theorem padded_blocks {n bs : Nat} (hbs : 0 < bs) : ((n + bs - 1) / bs * bs + bs - 1) / bs = (n + bs - 1) / bs := by
  generalize (n + bs - 1) / bs = q
  rw [Nat.add_sub_assoc hbs, Nat.mul_comm, Nat.mul_add_div hbs, Nat.div_eq_of_lt (by omega), Nat.add_zero]

theorem cooToCsbr3_padded (M S rows columns bs : Nat) (es : List (Element T)) (hbs : 0 < bs) (hrows : rows + 2 * bs ≤ M)
    (hcols : columns + 2 * bs ≤ M) :
    cooToCsbr3 M S es rows columns bs = (do
      let r ← cooToCsbr3 M S es ((rows + bs - 1) / bs * bs) ((columns + bs - 1) / bs * bs) bs
      .ok ({ r.1 with rows := rows, columns := columns }, r.2) : C (Csbr3 T × List (Element T))) := by
  have e1 := Nat.div_mul_le_self (rows + bs - 1) bs
  have e2 := Nat.div_mul_le_self (columns + bs - 1) bs
  unfold cooToCsbr3
  rw [addM_eq (a := rows) (by omega), addM_eq (a := columns) (by omega), subM_eq (a := rows + bs) (by omega) (by omega),
    subM_eq (a := columns + bs) (by omega) (by omega), addM_eq (a := (rows + bs - 1) / bs * bs) (by omega),
    addM_eq (a := (columns + bs - 1) / bs * bs) (by omega), subM_eq (a := (rows + bs - 1) / bs * bs + bs) (by omega) (by omega),
    subM_eq (a := (columns + bs - 1) / bs * bs + bs) (by omega) (by omega), cdiv_ok hbs, cdiv_ok hbs, cdiv_ok hbs, cdiv_ok hbs,
    padded_blocks hbs, padded_blocks hbs]
  simp only [ok_bind, bind_assoc]

/-- **C85**, the gap in CSBR3: entries in the space between the matrix and the next whole block are accepted, and the product reads
and writes there. -/
theorem C85_csbr3_accepts [Add T] [Mul T] (M S rows columns bs : Nat) (es : List (Element T))
    (hbs : 0 < bs) (hS : bs ≤ S) (hne : es ≠ []) (hlen : es.length + 1 < M)
    (hgrid : ((rows + bs - 1) / bs) * ((columns + bs - 1) / bs) < M)
    (hrows : rows + 2 * bs ≤ M) (hcols : columns + 2 * bs ≤ M)
    (hin : InRange (ents es) ((rows + bs - 1) / bs * bs) ((columns + bs - 1) / bs * bs))
    (nx ny : Nat) (hnx : (columns + bs - 1) / bs * bs ≤ nx) (hny : (rows + bs - 1) / bs * bs ≤ ny) (x y : Nat → T) :
    ∃ A es', cooToCsbr3 M S es rows columns bs = .ok (A, es') ∧
      A.spmvBalanced M (Buf.full nx x) (Buf.full ny y) = .ok (Buf.full ny (spmvExact (ents es) x y)) := by
  have e1 := Nat.div_mul_le_self (rows + bs - 1) bs
  have e2 := Nat.div_mul_le_self (columns + bs - 1) bs
  obtain ⟨A, es', h1, h2⟩ := C10_csbr3_spmv M S _ _ bs es hbs hS hne hlen (by rw [padded_blocks hbs, padded_blocks hbs]; exact hgrid)
    (by omega) (by omega) hin nx ny hnx hny x y
  rw [cooToCsbr3_padded M S rows columns bs es hbs hrows hcols, h1, ok_bind]
  exact ⟨_, _, rfl, h2⟩

end Gsb
