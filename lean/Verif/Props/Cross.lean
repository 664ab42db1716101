import Verif.Props.Csr
import Verif.Props.Coo
import Verif.Props.Other
import Verif.Props.Csbr
import Verif.Proof.Readback
/-
C15 (all exact formats agree), C49 (nothing lost or invented), C50 (accumulation over calls),
C53 (the COO argument after construction).
-/
namespace Gsb
variable {T : Type}

/-! ### C15 -/

/-- **C15.** One entry list, any partition and width: CSR, CSR2, wide-row CSR, CSBR, CSBR2, CSBR3 and
multiplication straight from the row-sorted COO array all leave *the same* vector `y'`, whatever `+` and `*`
are (no law is assumed, so this covers every rounding). -/
theorem C15_formats_agree [Add T] [Mul T] [Zero T] (M S workers rows columns width bs : Nat) (es : List (Element T))
    (offR : List Nat) (blockrows : Nat) (offC : List Nat) (blockcols : Nat)
    (PR : Partition offR blockrows rows) (PC : Partition offC blockcols columns)
    (hw : 0 < workers) (hne : es ≠ []) (hlen : es.length + 1 < M) (hgrid : blockrows * blockcols < M)
    (hbr : blockrows ≤ rows) (hbc : blockcols ≤ columns)
    (hwidth : 0 < width) (hwS : width ≤ S) (hbs : 0 < bs) (hbS : bs ≤ S)
    (hgrid3 : ((rows + bs - 1) / bs) * ((columns + bs - 1) / bs) < M)
    (hrows : rows + bs + width < M) (hcols : columns + bs < M)
    (hin : InRange (ents es) rows columns) (x y : Nat → T) :
    ∃ y', (∃ A es', cooToCsr M es rows columns = .ok (A, es') ∧
        A.spmv (Buf.full columns x) 0 (Buf.full rows y) 0 = .ok (Buf.full rows y')) ∧
      (∃ A es', cooToCsr2 M es rows columns = .ok (A, es') ∧
        A.spmv (Buf.full columns x) (Buf.full rows y) = .ok (Buf.full rows y')) ∧
      (∃ A es', cooToCswr M S es rows columns width = .ok (A, es') ∧
        A.spmv M (Buf.full columns x) (Buf.full rows y) = .ok (Buf.full rows y')) ∧
      (∃ A es', cooToCsbr M workers es rows columns offR blockrows offC blockcols = .ok (A, es') ∧
        A.spmv M (Buf.full columns x) (Buf.full rows y) = .ok (Buf.full rows y')) ∧
      (∃ A es', cooToCsbr2 M es rows columns offR blockrows offC blockcols = .ok (A, es') ∧
        A.spmv M (Buf.full columns x) (Buf.full rows y) = .ok (Buf.full rows y')) ∧
      (∃ A es', cooToCsbr3 M S es rows columns bs = .ok (A, es') ∧
        A.spmvBalanced M (Buf.full columns x) (Buf.full rows y) = .ok (Buf.full rows y')) ∧
      spmvCooArray (Buf.ofList (sortTriplets es)) es.length (Buf.full columns x) 0 (Buf.full rows y) 0 =
        .ok (Buf.full rows y') := by
  refine ⟨spmvExact (ents es) x y, ?_, ?_, ?_, ?_, ?_, ?_, ?_⟩
  · obtain ⟨A, es', h1, h2, -⟩ := C01_csr_spmv M rows columns es (by omega) (by omega) (by omega) hin columns rows
      (Nat.le_refl _) (Nat.le_refl _) x y
    exact ⟨A, es', h1, h2⟩
  · obtain ⟨A, es', h1, h2, -⟩ := C02_csr2_spmv M rows columns es (by omega) (by omega) hin columns rows
      (Nat.le_refl _) (Nat.le_refl _) x y
    exact ⟨A, es', h1, h2⟩
  · obtain ⟨A, es', h1, -, -, h2⟩ := C07_cswr_spmv M S rows columns width es hwidth hwS (by omega) (by omega) hin x y
    exact ⟨A, es', h1, h2⟩
  · exact C08_csbr_spmv M workers rows columns es offR blockrows offC blockcols PR PC hw hne (by omega) hgrid (by omega)
      (by omega) hbr hbc hin columns rows (Nat.le_refl _) (Nat.le_refl _) x y
  · exact C09_csbr2_spmv M rows columns es offR blockrows offC blockcols PR PC hne (by omega) hgrid (by omega)
      (by omega) hbr hbc hin columns rows (Nat.le_refl _) (Nat.le_refl _) x y
  · exact C10_csbr3_spmv M S rows columns bs es hbs hbS hne hlen hgrid3 (by omega) hcols hin columns rows
      (Nat.le_refl _) (Nat.le_refl _) x y
  · have hin' : InRange (ents (sortTriplets es)) rows columns := fun e he =>
      hin e ((ents_perm (sortTriplets_perm es true)).mem_iff.1 he)
    have := C04_coo_array_spmv rows columns (sortTriplets es) hin' x y
    rw [length_sortTriplets, sortTriplets_exact] at this
    exact this

/-- The hypotheses of C15 are met by a 5×4 matrix with an irregular partition, entries out of order and with a
duplicate, 32-bit indices and 16-bit small indices. -/
example : Partition [0, 2, 5] 2 5 ∧ Partition [0, 1, 4] 2 4 ∧
    InRange (ents [(⟨4, 3, 5, 0⟩ : Element Int), ⟨0, 0, 2, 0⟩, ⟨1, 3, 7, 0⟩, ⟨4, 3, 1, 0⟩]) 5 4 ∧
    2 * 2 < 2 ^ 32 ∧ 3 ≤ 2 ^ 16 ∧ ((5 + 3 - 1) / 3) * ((4 + 3 - 1) / 3) < 2 ^ 32 ∧ 5 + 3 + 3 < 2 ^ 32 :=
  ⟨⟨rfl, rfl, rfl, by decide⟩, ⟨rfl, rfl, rfl, by decide⟩, by decide, by decide, by decide, by decide, by decide⟩

/-! ### C49 -/

section
variable {ε : Type} [NZ ε T]

/-- **C49**, CSR and CSR2: reading the arrays back gives exactly the input entries, each as often as it was given. -/
theorem C49_csr_readback (M rows columns : Nat) (es : List ε) (hnnz : es.length < M) (hrows : rows + 1 < M)
    (hcols : columns < M) (hin : InRange (ents es) rows columns) :
    (∃ A es' L, cooToCsr M es rows columns = .ok (A, es') ∧ A.read = .ok L ∧ L.Perm (ents es)) ∧
    (∃ A es' L, cooToCsr2 M es rows columns = .ok (A, es') ∧ A.read = .ok L ∧ L.Perm (ents es)) := by
  have hp := ents_perm (sortTriplets_perm es true)
  have hrow : ∀ e ∈ sortTriplets es, (NZ.toEnt e).row < rows := fun e he =>
    (hin _ (List.mem_map_of_mem (mem_sortTriplets.1 he))).1
  have hcol : ∀ e ∈ ents (sortTriplets es), e.col < M := fun e he =>
    Nat.lt_trans (hin _ (hp.mem_iff.1 he)).2 hcols
  have hs : (sortTriplets es).Pairwise (fun a b => (NZ.toEnt a).row ≤ (NZ.toEnt b).row) := sortTriplets_sorted es
  refine ⟨⟨csrOf M (sortTriplets es) rows columns, sortTriplets es, _, ?_, csrOf_read M _ rows columns hrow hs, ?_⟩,
    ⟨_, _, _, cooToCsr2_spec M es rows columns false hnnz hrows (fun e he => (hin _ (List.mem_map_of_mem he)).1), ?_, hp⟩⟩
  · unfold cooToCsr
    simp only [Bool.false_eq_true, if_false]
    rw [csrBuild_spec M M _ rows columns (by rw [length_sortTriplets]; exact hnnz) hrows hrow, ok_bind]
  · rw [truncCols_eq hcol]; exact hp
  · simp only [Bool.false_eq_true, if_false]
    exact csr2Of_read _ rows columns hrow hs

/-- **C49**, wide rows. -/
theorem C49_cswr_readback (M S rows columns width : Nat) (es : List ε) (hw : 0 < width) (hwS : width ≤ S)
    (hnnz : es.length < M) (hrows : rows + width < M) (hin : InRange (ents es) rows columns) :
    ∃ A es' L, cooToCswr M S es rows columns width = .ok (A, es') ∧ A.read = .ok L ∧ L.Perm (ents es) := by
  have hp : (sortTripletsWide width es).Perm es := List.mergeSort_perm _ _
  have hid : ∀ r, width * (r / width) + r % width % S = r := by
    intro r
    rw [Nat.mod_eq_of_lt (a := r % width) (Nat.lt_of_lt_of_le (Nat.mod_lt _ hw) hwS)]
    exact Nat.div_add_mod r width
  have h1 := Nat.div_add_mod (rows + width - 1) width
  have h2 := Nat.mod_lt (rows + width - 1) hw
  refine ⟨_, _, _, cooToCswr_spec M S es rows columns width hw hnnz hrows (fun e he => (hin e he).1),
    cswrOf_read S _ rows columns width _ ?_ ?_, ?_⟩
  · exact sortWide_sorted width es
  · intro e he
    have := (hin _ (List.mem_map_of_mem (hp.mem_iff.1 he))).1
    rw [Nat.div_lt_iff_lt_mul hw]
    rw [Nat.mul_comm] at h1
    omega
  · have : (ents (sortTripletsWide width es)).map (fun e : Ent T =>
        (⟨width * (e.row / width) + e.row % width % S, e.col, e.val⟩ : Ent T)) = ents (sortTripletsWide width es) := by
      conv => rhs; rw [← List.map_id (ents (sortTripletsWide width es))]
      refine List.map_congr_left (fun e _ => ?_)
      rw [hid]; rfl
    rw [this]; exact ents_perm hp

end

/-- **C49**, CSBR and CSBR2. -/
theorem C49_csbr_readback [Add T] [Mul T] (M workers rows columns : Nat) (es : List (Element T))
    (offR : List Nat) (blockrows : Nat) (offC : List Nat) (blockcols : Nat)
    (PR : Partition offR blockrows rows) (PC : Partition offC blockcols columns)
    (hw : 0 < workers) (hne : es ≠ []) (hlen : es.length < M) (hgrid : blockrows * blockcols < M)
    (hrows : rows + 1 < M) (hcols : columns < M) (hbr : blockrows ≤ rows) (hbc : blockcols ≤ columns)
    (hin : InRange (ents es) rows columns) :
    (∃ A es' L, cooToCsbr M workers es rows columns offR blockrows offC blockcols = .ok (A, es') ∧
      A.read = .ok L ∧ L.Perm (ents es)) ∧
    (∃ A es' L, cooToCsbr2 M es rows columns offR blockrows offC blockcols = .ok (A, es') ∧
      A.read = .ok L ∧ L.Perm (ents es)) := by
  have H := prepared_blkIn (M := M) PR PC hne hlen hgrid hrows hcols hbr (by omega) hin
  obtain ⟨P, hP⟩ := csbr_main (workers := workers) hw PR PC hne hlen hgrid hrows hcols hbr hbc hin
  exact ⟨⟨_, _, _, hP, csbr_read H (fun i hi => PR.rd_ok i hi) (fun i hi => PC.rd_ok i hi) P, ents_prepared_perm⟩,
    ⟨_, _, _, csbr2_main PR PC hne hlen hgrid hrows hcols hbr hbc hin, csbr2_read H (fun i hi => PR.rd_ok i hi),
      ents_prepared_perm⟩⟩

/-- **C49**, CSBR3. -/
theorem C49_csbr3_readback (M S rows columns bs : Nat) (es : List (Element T))
    (hbs : 0 < bs) (hS : bs ≤ S) (hne : es ≠ []) (hlen : es.length + 1 < M)
    (hgrid : ((rows + bs - 1) / bs) * ((columns + bs - 1) / bs) < M)
    (hrows : rows + bs < M) (hcols : columns + bs < M) (hin : InRange (ents es) rows columns) :
    ∃ A es' L, cooToCsbr3 M S es rows columns bs = .ok (A, es') ∧ A.read = .ok L ∧ L.Perm (ents es) := by
  have H := prepared3_blkIn (M := M) hbs hne (by omega) hgrid hrows hcols hin
  refine ⟨_, _, _, csbr3_main hbs hne hlen hgrid hrows hcols hin, csbr3_read H, ?_⟩
  have : (prepared3 bs ((columns + bs - 1) / bs) es).map (fun e =>
        (⟨e.block / ((columns + bs - 1) / bs) * bs + (e.row - e.block / ((columns + bs - 1) / bs) * bs) % S,
          e.block % ((columns + bs - 1) / bs) * bs + (e.col - e.block % ((columns + bs - 1) / bs) * bs) % S, e.val⟩ : Ent T)) =
      ents (prepared3 bs ((columns + bs - 1) / bs) es) := by
    unfold ents
    refine List.map_congr_left (fun e he => ?_)
    have h1 := H.inR e he
    have h2 := H.inC e he
    rw [Nat.add_mul] at h1 h2
    simp only [NZ.toEnt]
    have e1 : (e.row - e.block / ((columns + bs - 1) / bs) * bs) % S = e.row - e.block / ((columns + bs - 1) / bs) * bs :=
      Nat.mod_eq_of_lt (by omega)
    have e2 : (e.col - e.block % ((columns + bs - 1) / bs) * bs) % S = e.col - e.block % ((columns + bs - 1) / bs) * bs :=
      Nat.mod_eq_of_lt (by omega)
    rw [e1, e2, Nat.add_sub_cancel' h1.1, Nat.add_sub_cancel' h2.1]
  rw [this]; exact prepared3_ents_perm

/-! ### C50 -/

/-- `k` calls of a kernel on the same `y`. -/
def callTimes {α : Type} (f : α → C α) : Nat → α → C α
  | 0, y => .ok y
  | k + 1, y => do
    let y ← f y
    callTimes f k y

theorem callTimes_full {f : Buf T → C (Buf T)} {n : Nat} {g : (Nat → T) → (Nat → T)}
    (h : ∀ y, f (Buf.full n y) = .ok (Buf.full n (g y))) (k : Nat) (y : Nat → T) :
    callTimes f k (Buf.full n y) = .ok (Buf.full n (g^[k] y)) := by
  induction k generalizing y with
  | zero => rfl
  | succ k ih => unfold callTimes; rw [h y, ok_bind, ih, Function.iterate_succ_apply]

theorem spmvSum_iterate [AddCommMonoid T] [Mul T] (es : List (Ent T)) (x y : Nat → T) (k i : Nat) :
    (spmvSum es x)^[k] y i = y i + k • ((rowEntries es i).map (fun e => e.val * x e.col)).sum := by
  induction k generalizing y with
  | zero => simp
  | succ k ih =>
    rw [Function.iterate_succ_apply, ih, spmvSum, succ_nsmul', add_assoc]

section
variable [NonUnitalNonAssocSemiring T]

/-- What `k` calls on a matrix must leave: `y[i] + k · (A x)[i]`. -/
def AddsKTimes (f : Buf T → C (Buf T)) (es : List (Ent T)) (rows columns : Nat) (x : Nat → T) : Prop :=
  ∀ (k : Nat) (y : Nat → T), ∃ y', callTimes f k (Buf.full rows y) = .ok (Buf.full rows y') ∧
    ∀ i : Fin rows, y' i = y i + k • (toMatrix es rows columns).mulVec (fun j => x j) i

theorem addsKTimes_of {f : Buf T → C (Buf T)} {es : List (Ent T)} {rows columns : Nat} {x : Nat → T}
    (hin : InRange es rows columns) (h : ∀ y, f (Buf.full rows y) = .ok (Buf.full rows (spmvSum es x y))) :
    AddsKTimes f es rows columns x := by
  intro k y
  refine ⟨_, callTimes_full h k y, fun i => ?_⟩
  rw [spmvSum_iterate]
  have := spmvSum_eq_mulVec es rows columns hin x (fun _ => 0) i
  unfold spmvSum at this
  simp only [zero_add] at this
  rw [this]

/-- **C50.** For every format, `k` calls on one matrix add the product `k` times, `k = 0, 1, 2, …`, whatever `y`
held before. -/
theorem C50_repeated_spmv (M S workers rows columns width bs : Nat) (es : List (Element T))
    (offR : List Nat) (blockrows : Nat) (offC : List Nat) (blockcols : Nat)
    (PR : Partition offR blockrows rows) (PC : Partition offC blockcols columns)
    (hw : 0 < workers) (hne : es ≠ []) (hlen : es.length + 1 < M) (hgrid : blockrows * blockcols < M)
    (hbr : blockrows ≤ rows) (hbc : blockcols ≤ columns)
    (hwidth : 0 < width) (hwS : width ≤ S) (hbs : 0 < bs) (hbS : bs ≤ S)
    (hgrid3 : ((rows + bs - 1) / bs) * ((columns + bs - 1) / bs) < M)
    (hrows : rows + bs + width < M) (hcols : columns + bs < M)
    (hin : InRange (ents es) rows columns) (x : Nat → T) :
    (∃ A es', cooToCsr M es rows columns = .ok (A, es') ∧
      AddsKTimes (fun y => A.spmv (Buf.full columns x) 0 y 0) (ents es) rows columns x) ∧
    (∃ A es', cooToCsr2 M es rows columns = .ok (A, es') ∧
      AddsKTimes (fun y => A.spmv (Buf.full columns x) y) (ents es) rows columns x) ∧
    (∃ A es', cooToCswr M S es rows columns width = .ok (A, es') ∧
      AddsKTimes (fun y => A.spmv M (Buf.full columns x) y) (ents es) rows columns x) ∧
    (∃ A es', cooToCsbr M workers es rows columns offR blockrows offC blockcols = .ok (A, es') ∧
      AddsKTimes (fun y => A.spmv M (Buf.full columns x) y) (ents es) rows columns x) ∧
    (∃ A es', cooToCsbr2 M es rows columns offR blockrows offC blockcols = .ok (A, es') ∧
      AddsKTimes (fun y => A.spmv M (Buf.full columns x) y) (ents es) rows columns x) ∧
    (∃ A es', cooToCsbr3 M S es rows columns bs = .ok (A, es') ∧
      AddsKTimes (fun y => A.spmvBalanced M (Buf.full columns x) y) (ents es) rows columns x) ∧
    AddsKTimes (fun y => spmvCooArray (Buf.ofList es) es.length (Buf.full columns x) 0 y 0) (ents es) rows columns x := by
  refine ⟨?_, ?_, ?_, ?_, ?_, ?_, ?_⟩
  · obtain ⟨A, es', h1, -⟩ := C01_csr_spmv M rows columns es (by omega) (by omega) (by omega) hin columns rows
      (Nat.le_refl _) (Nat.le_refl _) x x
    refine ⟨A, es', h1, addsKTimes_of hin (fun y => ?_)⟩
    obtain ⟨A', es'', h1', h2', -⟩ := C01_csr_spmv M rows columns es (by omega) (by omega) (by omega) hin columns rows
      (Nat.le_refl _) (Nat.le_refl _) x y
    rw [h1] at h1'; cases h1'
    rw [← spmvExact_eq_sum]; exact h2'
  · obtain ⟨A, es', h1, -⟩ := C02_csr2_spmv M rows columns es (by omega) (by omega) hin columns rows
      (Nat.le_refl _) (Nat.le_refl _) x x
    refine ⟨A, es', h1, addsKTimes_of hin (fun y => ?_)⟩
    obtain ⟨A', es'', h1', h2', -⟩ := C02_csr2_spmv M rows columns es (by omega) (by omega) hin columns rows
      (Nat.le_refl _) (Nat.le_refl _) x y
    rw [h1] at h1'; cases h1'
    rw [← spmvExact_eq_sum]; exact h2'
  · obtain ⟨A, es', h1, -⟩ := C07_cswr_spmv M S rows columns width es hwidth hwS (by omega) (by omega) hin x x
    refine ⟨A, es', h1, addsKTimes_of hin (fun y => ?_)⟩
    obtain ⟨A', es'', h1', -, -, h2'⟩ := C07_cswr_spmv M S rows columns width es hwidth hwS (by omega) (by omega) hin x y
    rw [h1] at h1'; cases h1'
    rw [← spmvExact_eq_sum]; exact h2'
  · obtain ⟨A, es', h1, -⟩ := C08_csbr_spmv M workers rows columns es offR blockrows offC blockcols PR PC hw hne (by omega)
      hgrid (by omega) (by omega) hbr hbc hin columns rows (Nat.le_refl _) (Nat.le_refl _) x x
    refine ⟨A, es', h1, addsKTimes_of hin (fun y => ?_)⟩
    obtain ⟨A', es'', h1', h2'⟩ := C08_csbr_spmv M workers rows columns es offR blockrows offC blockcols PR PC hw hne (by omega)
      hgrid (by omega) (by omega) hbr hbc hin columns rows (Nat.le_refl _) (Nat.le_refl _) x y
    rw [h1] at h1'; cases h1'
    rw [← spmvExact_eq_sum]; exact h2'
  · obtain ⟨A, es', h1, -⟩ := C09_csbr2_spmv M rows columns es offR blockrows offC blockcols PR PC hne (by omega)
      hgrid (by omega) (by omega) hbr hbc hin columns rows (Nat.le_refl _) (Nat.le_refl _) x x
    refine ⟨A, es', h1, addsKTimes_of hin (fun y => ?_)⟩
    obtain ⟨A', es'', h1', h2'⟩ := C09_csbr2_spmv M rows columns es offR blockrows offC blockcols PR PC hne (by omega)
      hgrid (by omega) (by omega) hbr hbc hin columns rows (Nat.le_refl _) (Nat.le_refl _) x y
    rw [h1] at h1'; cases h1'
    rw [← spmvExact_eq_sum]; exact h2'
  · obtain ⟨A, es', h1, -⟩ := C10_csbr3_spmv M S rows columns bs es hbs hbS hne hlen hgrid3 (by omega) hcols hin columns rows
      (Nat.le_refl _) (Nat.le_refl _) x x
    refine ⟨A, es', h1, addsKTimes_of hin (fun y => ?_)⟩
    obtain ⟨A', es'', h1', h2'⟩ := C10_csbr3_spmv M S rows columns bs es hbs hbS hne hlen hgrid3 (by omega) hcols hin columns rows
      (Nat.le_refl _) (Nat.le_refl _) x y
    rw [h1] at h1'; cases h1'
    rw [← spmvExact_eq_sum]; exact h2'
  · refine addsKTimes_of hin (fun y => ?_)
    rw [← spmvInOrder_eq_sum]
    exact C04_coo_array_spmv rows columns es hin x y

end

/-- C50 exactly: in arbitrary arithmetic, `k` calls iterate the exact product (CSR; by C15 the other
exact formats leave the same vectors). -/
theorem C50_repeated_exact [Add T] [Mul T] {ε : Type} [NZ ε T] (M rows columns : Nat) (es : List ε)
    (hnnz : es.length < M) (hrows : rows + 1 < M) (hcols : columns < M) (hin : InRange (ents es) rows columns)
    (x : Nat → T) :
    ∃ A es', cooToCsr M es rows columns = .ok (A, es') ∧ ∀ (k : Nat) (y : Nat → T),
      callTimes (fun y => A.spmv (Buf.full columns x) 0 y 0) k (Buf.full rows y) =
        .ok (Buf.full rows ((spmvExact (ents es) x)^[k] y)) := by
  obtain ⟨A, es', h1, -⟩ := C01_csr_spmv M rows columns es hnnz hrows hcols hin columns rows
    (Nat.le_refl _) (Nat.le_refl _) x x
  refine ⟨A, es', h1, fun k y => callTimes_full (fun y => ?_) k y⟩
  obtain ⟨A', es'', h1', h2', -⟩ := C01_csr_spmv M rows columns es hnnz hrows hcols hin columns rows
    (Nat.le_refl _) (Nat.le_refl _) x y
  rw [h1] at h1'; cases h1'
  exact h2'

end Gsb
