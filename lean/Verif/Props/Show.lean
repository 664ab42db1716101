import Verif.Model.Show
import Verif.Props.Counts
import Verif.Props.Broken
import Verif.Props.CsbrCoo2
import Verif.Props.Csbr
import Verif.Props.Csr
import Verif.Props.Coo
import Verif.Proof.Cswr
import Verif.Proof.IoBlocked
/-
C79: what `show`, `print_info` and `partition_dump` print, and the program visual.
-/
namespace Gsb
variable {ε T : Type} [NZ ε T]

/-! ### show of the coordinate formats -/

omit [NZ ε T] in
theorem showCoo_spec (L : List (Ent T)) (get : Nat → C (Ent T)) (h : ∀ j (hj : j < L.length), get j = .ok L[j]) :
    showCoo L.length get = .ok (if L.length ≤ 20 then L.map (fun e => .entry e.row e.col e.val) ++ [.newline] else [.tooLarge]) := by
  unfold showCoo
  by_cases hl : L.length ≤ 20
  · rw [if_neg (by omega), if_pos hl]
    have := forLoop_list (f := fun i (out : List (ShowTok T)) => (do
        let e ← get i
        .ok (out ++ [.entry e.row e.col e.val] : List (ShowTok T)) : C (List (ShowTok T)))) L
      (fun (t : List (ShowTok T)) => t) (fun t e => t ++ [.entry e.row e.col e.val]) [] (by
        intro j t hj
        rw [h j hj, ok_bind])
    rw [this, ok_bind]
    congr 2
    clear this h hl
    induction L using List.reverseRecOn with
    | nil => rfl
    | append_singleton L e ih => rw [List.foldl_append, ih]; simp
  · rw [if_pos (by omega), if_neg hl]

/-- **C79**: `show` of a `Coo2` or `Coo3` prints its entries in the order of the array, one per line, and a newline; of more than 20
entries it prints one sentence instead. -/
theorem C79_show_nonzeros (es : List ε) :
    (showNonzeros es : C (List (ShowTok T))) =
      .ok (if es.length ≤ 20 then (ents es).map (fun e => .entry e.row e.col e.val) ++ [.newline] else [.tooLarge]) := by
  have hl : (ents es : List (Ent T)).length = es.length := by simp [ents]
  unfold showNonzeros
  have h := showCoo_spec (ents es : List (Ent T)) (fun i => do let e ← rd es i; .ok (NZ.toEnt e)) (by
    intro j hj
    rw [hl] at hj
    simp only [rd_ok hj, ok_bind]
    simp [ents])
  rw [hl] at h
  exact h

/-- **C79**: `show` of a `Coo` built from entries whose indices fit the small index type prints those entries, sorted. -/
theorem C79_show_coo (M S : Nat) (es : List ε) (hS : ∀ e ∈ (ents es : List (Ent T)), e.row < S ∧ e.col < S) :
    ∃ (A : Coo T) (es' : List ε), mkCoo M S es = .ok (A, es') ∧ es'.Perm es ∧
      A.show = .ok (if es.length ≤ 20 then (ents es').map (fun e => .entry e.row e.col e.val) ++ [.newline] else [.tooLarge]) := by
  have hp := sortMorton_perm M es
  have hl : (ents (sortTripletsMorton M es) : List (Ent T)).length = es.length := by simp [ents, hp.length_eq]
  unfold mkCoo
  simp only
  rw [cooFill_spec, ok_bind]
  refine ⟨_, _, rfl, hp, ?_⟩
  unfold Coo.show
  have h := showCoo_spec (ents (sortTripletsMorton M es) : List (Ent T)) (Coo.ent
    ⟨⟨(sortTripletsMorton M es).length, fun k => ((sortTripletsMorton M es)[k]?).map (fun e => (NZ.toEnt e : Ent T).row % S)⟩,
      ⟨(sortTripletsMorton M es).length, fun k => ((sortTripletsMorton M es)[k]?).map (fun e => (NZ.toEnt e : Ent T).col % S)⟩,
      ⟨(sortTripletsMorton M es).length, fun k => ((sortTripletsMorton M es)[k]?).map (fun e => (NZ.toEnt e : Ent T).val)⟩,
      (sortTripletsMorton M es).length⟩) (by
    intro j hj
    have hj' : j < (sortTripletsMorton M es).length := by rw [hl, ← hp.length_eq] at hj; exact hj
    have hb := hS _ (List.mem_map_of_mem (f := NZ.toEnt) (hp.mem_iff.1 (List.getElem_mem hj')))
    unfold Coo.ent
    simp only
    have g : ∀ {α : Type} (f : ε → α), Buf.get (⟨(sortTripletsMorton M es).length, fun k => ((sortTripletsMorton M es)[k]?).map f⟩ : Buf α) j =
        .ok (f (sortTripletsMorton M es)[j]) := fun f => Buf.get_ok hj' (by simp only [List.getElem?_eq_getElem hj']; rfl)
    rw [g, ok_bind, g, ok_bind, g, ok_bind, Nat.mod_eq_of_lt hb.1, Nat.mod_eq_of_lt hb.2]
    simp [ents])
  rw [hl] at h
  rw [show (Coo.nnz _) = es.length from hp.length_eq]
  exact h

/-! ### show of CSR -/

omit [NZ ε T] in
/-- In a list sorted by row the slice between the counts is the list of the row's entries. -/
theorem slice_rowEntries (L : List (Ent T)) (hs : L.Pairwise (fun a b => a.row ≤ b.row)) (i : Nat) :
    (L.take (L.countP (fun e => decide (e.row < i + 1)))).drop (L.countP (fun e => decide (e.row < i))) = rowEntries L i := by
  induction L with
  | nil => rfl
  | cons a t ih =>
    rw [List.pairwise_cons] at hs
    have ih := ih hs.2
    unfold rowEntries at *
    have c1 : ∀ k, a.row < k → (a :: t).countP (fun e => decide (e.row < k)) = t.countP (fun e => decide (e.row < k)) + 1 :=
      fun k hk => List.countP_cons_of_pos (by simpa using hk)
    have c2 : ∀ k, k ≤ a.row → (a :: t).countP (fun e => decide (e.row < k)) = t.countP (fun e => decide (e.row < k)) :=
      fun k hk => List.countP_cons_of_neg (by simpa using hk)
    have c3 : ∀ k, k ≤ a.row → t.countP (fun e => decide (e.row < k)) = 0 := by
      intro k hk; rw [List.countP_eq_zero]; intro e he; have := hs.1 e he; simp; omega
    rcases Nat.lt_trichotomy a.row i with h | h | h
    · rw [c1 (i + 1) (by omega), c1 i h, List.take_succ_cons, List.drop_succ_cons, ih, List.filter_cons_of_neg (by simp; omega)]
    · rw [c3 i (by omega), List.drop_zero] at ih
      rw [c1 (i + 1) (by omega), c2 i (by omega), c3 i (by omega), List.take_succ_cons, List.drop_zero, ih,
        List.filter_cons_of_pos (by simpa using h)]
    · rw [c3 i (by omega), c3 (i + 1) (by omega)] at ih
      rw [c2 i (by omega), c2 (i + 1) (by omega), c3 i (by omega), c3 (i + 1) (by omega), List.filter_cons_of_neg (by simp; omega), ← ih]
      rfl

omit [NZ ε T] in
theorem showCsrRow_spec {L : List (Ent T)} {A : Csr T} (R : CsrRep L 0 A.rows A.rowPtr A.colInd A.val) {i : Nat} (hi : i < A.rows)
    (out : List (ShowTok T)) :
    showCsrRow A i out = .ok (out ++ ([.rowHead i] ++ (rowEntries L i).map (fun e => .cell e.col e.val) ++ [.newline])) := by
  unfold showCsrRow
  have hrp := R.rpLen
  rw [Buf.get_ok (by omega) (R.rpDat i (by omega)), ok_bind, Buf.get_ok (by omega) (R.rpDat (i + 1) (by omega)), ok_bind]
  have hab : L.countP (fun e => decide (e.row < i)) ≤ L.countP (fun e => decide (e.row < i + 1)) :=
    countP_lt_mono L (·.row) (by omega)
  have hsl := forLoop_slice (f := fun k (out : List (ShowTok T)) => (do
        let c ← A.colInd.get k
        let v ← A.val.get k
        .ok (out ++ [.cell c v] : List (ShowTok T)) : C (List (ShowTok T)))) L
      (fun (t : List (ShowTok T)) => t) (fun t e => t ++ [.cell e.col e.val]) (out ++ [.rowHead i]) hab List.countP_le_length (by
        intro j t h h1 h2
        have e1 := R.ciDat j h
        have e2 := R.vDat j h
        rw [Nat.zero_add] at e1 e2
        rw [Buf.get_ok e1.1 e1.2, ok_bind, Buf.get_ok e2.1 e2.2, ok_bind])
  rw [hsl, ok_bind, slice_rowEntries L R.sorted i]
  congr 1
  rw [← List.append_assoc, ← List.append_assoc]
  congr 1
  generalize out ++ [ShowTok.rowHead i] = a0
  generalize rowEntries L i = l
  induction l generalizing a0 with
  | nil => simp
  | cons e l ih => rw [List.foldl_cons, ih]; simp

/-- **C79**: `show` of a CSR matrix built from entries in range prints, for each row in order, the row's index, its entries in the
order of their columns (entries at one position in the order given), and a newline; of more than 20 rows it prints one sentence. -/
theorem C79_show_csr (M rows columns : Nat) (es : List ε) (hnnz : es.length < M) (hrows : rows + 1 < M) (hcols : columns < M)
    (hin : InRange (ents es : List (Ent T)) rows columns) :
    ∃ (A : Csr T) (es' : List ε), cooToCsr M es rows columns = .ok (A, es') ∧
      IsStableSort (fun a b : ε => decide ((NZ.toEnt a : Ent T).row < (NZ.toEnt b : Ent T).row ∨
        ((NZ.toEnt a : Ent T).row = (NZ.toEnt b : Ent T).row ∧ (NZ.toEnt a : Ent T).col ≤ (NZ.toEnt b : Ent T).col))) es es' ∧
      A.show = .ok (if rows ≤ 20 then (List.range rows).flatMap (fun i =>
        [.rowHead i] ++ (rowEntries (ents es') i).map (fun e => .cell e.col e.val) ++ [.newline]) else [.tooLarge]) := by
  have hrow : ∀ e ∈ sortTriplets es, (NZ.toEnt e : Ent T).row < rows := fun e he =>
    (hin _ (List.mem_map_of_mem (mem_sortTriplets.1 he))).1
  have hcol : ∀ e ∈ (ents (sortTriplets es) : List (Ent T)), e.col < columns := fun e he =>
    (hin _ ((ents_perm (sortTriplets_perm es true)).mem_iff.1 he)).2
  refine ⟨csrOf M (sortTriplets es) rows columns, sortTriplets es, ?_, C25_row_major es, ?_⟩
  · unfold cooToCsr
    simp only [Bool.false_eq_true, if_false]
    rw [csrBuild_spec M M _ rows columns (by rw [length_sortTriplets]; exact hnnz) hrows hrow, ok_bind]
  · have R := csrOf_rep M (sortTriplets es) rows columns hrow (sortTriplets_sorted es)
    rw [truncCols_eq (fun e he => Nat.lt_trans (hcol e he) hcols)] at R
    unfold Csr.show
    show (if rows > 20 then _ else _) = _
    by_cases hl : rows ≤ 20
    · rw [if_neg (by omega), if_pos hl]
      refine forLoop_closed' (fun n => (List.range n).flatMap (fun i =>
        [.rowHead i] ++ (rowEntries (ents (sortTriplets es)) i).map (fun e => .cell e.col e.val) ++ [.newline])) (Nat.zero_le _) rfl rfl ?_
      intro i _ hi
      rw [showCsrRow_spec R hi, List.range_succ, List.flatMap_append]
      simp
    · rw [if_pos (by omega), if_neg hl]

/-! ### print_info -/

/-- **C79**: `print_info` of CSR and CSR2 prints the number of rows and the number of entries given. -/
theorem C79_info_csr (M rows columns : Nat) (es : List ε) (hnnz : es.length < M) (hrows : rows + 1 < M)
    (hin : InRange (ents es : List (Ent T)) rows columns) :
    (∃ A es', (cooToCsr M es rows columns : C (Csr T × List ε)) = .ok (A, es') ∧ A.printInfo = .ok [.csr rows es.length]) ∧
    (∃ A es', (cooToCsr2 M es rows columns : C (Csr2 T × List ε)) = .ok (A, es') ∧ A.printInfo = .ok [.csr rows es.length]) := by
  obtain ⟨⟨A, a, h1, h2, h3, -⟩, ⟨B, b, h4, h5, h6, -⟩⟩ := C48_csr_nonzeros (T := T) M rows columns es hnnz hrows hin
  refine ⟨⟨A, a, h1, ?_⟩, ⟨B, b, h4, ?_⟩⟩
  · unfold Csr.printInfo; rw [h2, h3]; rfl
  · unfold Csr2.printInfo; rw [h5, h6]; rfl

/-- **C79**: `print_info` of Cswr prints the number of rows, of groups of `width` rows (the last one may be shorter), and of entries. -/
theorem C79_info_cswr (M S rows columns width : Nat) (es : List ε) (hw : 0 < width) (hM : es.length < M) (hr : rows + width < M)
    (hin : InRange (ents es : List (Ent T)) rows columns) :
    ∃ (A : Cswr T) (es' : List ε) (groups : Nat), cooToCswr M S es rows columns width = .ok (A, es') ∧
      A.printInfo = [.cswr rows groups width es.length] ∧ rows ≤ groups * width ∧ groups * width < rows + width := by
  refine ⟨_, _, (rows + width - 1) / width, cooToCswr_spec M S es rows columns width hw hM hr (fun e he => (hin e he).1), ?_, ?_, ?_⟩
  · have hp : (sortTripletsWide width es).Perm es := List.mergeSort_perm _ _
    simp [Cswr.printInfo, cswrOf, hp.length_eq]
  · have h1 := Nat.div_add_mod (rows + width - 1) width
    have h2 := Nat.mod_lt (rows + width - 1) hw
    rw [Nat.mul_comm] at h1
    omega
  · have h1 := Nat.div_mul_le_self (rows + width - 1) width
    omega

/-- **C79**: `print_info` of CSBR and CSBR2 prints the sizes given, the number of entries given, the number of blocks that hold one,
and the two quotients they make. -/
theorem C79_info_csbr [Add T] [Mul T] (M workers rows columns : Nat) (es : List (Element T))
    (offR : List Nat) (blockrows : Nat) (offC : List Nat) (blockcols : Nat)
    (PR : Partition offR blockrows rows) (PC : Partition offC blockcols columns)
    (hw : 0 < workers) (hne : es ≠ []) (hlen : es.length < M) (hgrid : blockrows * blockcols < M)
    (hrows : rows + 1 < M) (hcols : columns < M) (hbr : blockrows ≤ rows) (hbc : blockcols ≤ columns)
    (hin : InRange (ents es) rows columns) :
    ∃ nblocks, nblocks = (nonEmptyBlocks offR offC (ents es)).ncard ∧
    (∃ A es', cooToCsbr M workers es rows columns offR blockrows offC blockcols = .ok (A, es') ∧
      A.printInfo = [.title "CSBR matrix :", .dims rows columns, .grid blockrows blockcols, .fill es.length nblocks,
        .percent es.length rows columns, .percent nblocks blockrows blockcols]) ∧
    (∃ A es', cooToCsbr2 M es rows columns offR blockrows offC blockcols = .ok (A, es') ∧
      A.printInfo = [.title "CSBR2 matrix : ", .dims rows columns, .grid blockrows blockcols, .fill es.length nblocks,
        .percent es.length rows columns, .percent nblocks blockrows blockcols]) := by
  have H := prepared_blkIn (M := M) PR PC hne hlen hgrid hrows hcols hbr (by omega) hin
  obtain ⟨P, hP⟩ := csbr_main (workers := workers) hw PR PC hne hlen hgrid hrows hcols hbr hbc hin
  refine ⟨_, rfl, ⟨_, _, hP, ?_⟩, ⟨_, _, csbr2_main PR PC hne hlen hgrid hrows hcols hbr hbc hin, ?_⟩⟩
  · rw [← runs_ncard PR PC H hin]
    simp [Csbr.printInfo, infoBlocked, csbrOf, prepared_length]
  · rw [← runs_ncard PR PC H hin]
    simp [Csbr2.printInfo, infoBlocked, csbr2Of, prepared_length]

/-- **C79**: `print_info` of CSBR3, whose blocks are squares of `bs`. -/
theorem C79_info_csbr3 [Add T] [Mul T] (M S rows columns bs : Nat) (es : List (Element T)) (hbs : 0 < bs) (hne : es ≠ [])
    (hlen : es.length + 1 < M) (hgrid : (rows + bs - 1) / bs * ((columns + bs - 1) / bs) < M) (hrows : rows + bs < M)
    (hcols : columns + bs < M) (hin : InRange (ents es) rows columns) :
    ∃ A es' blockrows blockcols nblocks, cooToCsbr3 M S es rows columns bs = .ok (A, es') ∧
      rows ≤ blockrows * bs ∧ blockrows * bs < rows + bs ∧ columns ≤ blockcols * bs ∧ blockcols * bs < columns + bs ∧
      nblocks = ((ents es).map (fun e => (e.row / bs, e.col / bs))).toFinset.card ∧
      A.printInfo = [.title "Matrix info : ", .dims rows columns, .squares blockrows blockcols bs, .fill es.length nblocks,
        .percent es.length rows columns, .percent nblocks blockrows blockcols] := by
  have ceil : ∀ n, n ≤ (n + bs - 1) / bs * bs ∧ (n + bs - 1) / bs * bs < n + bs := by
    intro n
    have h1 := Nat.div_add_mod (n + bs - 1) bs
    have h2 := Nat.mod_lt (n + bs - 1) hbs
    have h3 := Nat.div_mul_le_self (n + bs - 1) bs
    rw [Nat.mul_comm] at h1
    omega
  have H := prepared3_blkIn (M := M) hbs hne (by omega) hgrid hrows hcols hin
  refine ⟨_, _, (rows + bs - 1) / bs, (columns + bs - 1) / bs, _, csbr3_main hbs hne hlen hgrid hrows hcols hin, (ceil _).1, (ceil _).2,
    (ceil _).1, (ceil _).2, rfl, ?_⟩
  have hn : (runs Element.block (prepared3 bs ((columns + bs - 1) / bs) es)).length =
      ((ents es).map (fun e => (e.row / bs, e.col / bs))).toFinset.card := by
    have hnd : (runKeys Element.block (prepared3 bs ((columns + bs - 1) / bs) es)).Nodup :=
      (runKeys_strict H).imp (fun h => Nat.ne_of_lt h)
    have hinj : Function.Injective (fun κ : Nat => (κ / ((columns + bs - 1) / bs), κ % ((columns + bs - 1) / bs))) := by
      intro a b h
      simp only [Prod.mk.injEq] at h
      rw [← Nat.div_add_mod a ((columns + bs - 1) / bs), ← Nat.div_add_mod b ((columns + bs - 1) / bs), h.1, h.2]
    rw [← runKeys_length, ← List.length_map (f := fun κ : Nat => (κ / ((columns + bs - 1) / bs), κ % ((columns + bs - 1) / bs))),
      ← List.toFinset_card_of_nodup (hnd.map hinj)]
    congr 1
    have hk : ∀ e ∈ prepared3 bs ((columns + bs - 1) / bs) es,
        (e.block / ((columns + bs - 1) / bs), e.block % ((columns + bs - 1) / bs)) = (e.row / bs, e.col / bs) := by
      intro e he
      have hm := mem_prepared3 he
      have hc := ceil_lt hbs (hin _ hm.2).2
      rw [hm.1, key_div hc, key_mod hc]
    ext p
    simp only [List.mem_toFinset, List.mem_map]
    constructor
    · rintro ⟨κ, hκ, rfl⟩
      obtain ⟨a, ha, rfl⟩ := (mem_runKeys _ _ _).1 hκ
      exact ⟨_, (mem_prepared3 ha).2, (hk a ha).symm⟩
    · rintro ⟨e, he, rfl⟩
      have he' := (prepared3_ents_perm (bs := bs) (blockcols := (columns + bs - 1) / bs) (es := es)).mem_iff.2 he
      obtain ⟨a, ha, rfl⟩ := List.mem_map.1 he'
      exact ⟨a.block, (mem_runKeys _ _ _).2 ⟨a, ha, rfl⟩, hk a ha⟩
  rw [← hn]
  simp [Csbr3.printInfo, csbr3Of, prepared3_length]

theorem sum_six (f : Nat → Nat) (h3 : f 3 = 0) (h5 : f 5 = 0) : f 0 + f 1 + f 4 + f 2 = ((List.range 6).map f).sum := by
  simp [List.range_succ, h3, h5]
  omega

/-- **C79**: `print_info` of CGBR: besides the lines of CSBR, the flag `balanced`, and two lines of four counts — blocks and entries by
type — that add up to the totals; no block of a CGBR is "CSR (parallel)". -/
theorem C79_info_cgbr [NonUnitalNonAssocSemiring T] (M S B workers rows columns : Nat) (choose : Nat → Nat → Nat → BlockChoice)
    (heavy : Nat → Nat → List Nat → Bool) (es : List (Element T))
    (offR : List Nat) (blockrows : Nat) (offC : List Nat) (blockcols : Nat)
    (PR : Partition offR blockrows rows) (PC : Partition offC blockcols columns)
    (hBS : B ≤ S) (hSR : BlocksAtMost offR B) (hSC : BlocksAtMost offC B)
    (hdense : ∀ rs cs n, rs ≤ B → cs ≤ B → n ≤ es.length → choose rs cs n = .dense → rs * cs < M)
    (hdup : (∀ rs cs n, choose rs cs n ≠ .dense) ∨ Distinct (ents es))
    (hw : 0 < workers) (hne : es ≠ []) (hlen : 2 * (es.length + 2) ≤ M) (hgrid : blockrows * blockcols < M)
    (hrows : rows + 1 < M) (hcols : columns < M) (hbr : blockrows ≤ rows) (hbc : blockcols ≤ columns)
    (hin : InRange (ents es) rows columns) :
    ∃ A es' nblocks, ∃ (blk : Nat → MatrixBlock T) (b n : Nat → Nat),
      cooToCgbr M S workers choose heavy es rows columns offR blockrows offC blockcols = .ok (A, es') ∧
      nblocks = (nonEmptyBlocks offR offC (ents es)).ncard ∧ (∀ k, k < nblocks → A.base.blocks.get k = .ok (blk k)) ∧
      (∀ t, t < 3 → b t = ((List.range nblocks).filter (fun k => (blk k).tag == t)).length) ∧
      b 0 + b 1 + b 2 = nblocks ∧ n 0 + n 1 + n 2 = es.length ∧
      A.printInfo = .ok [.title "Matrix info : ", .dims rows columns, .grid blockrows blockcols, .fill es.length nblocks,
        .percent es.length rows columns, .percent nblocks blockrows blockcols, .balanced A.balanced, .blocks (b 0) (b 1) 0 (b 2),
        .nonzeros (n 0) (n 1) 0 (n 2)] := by
  obtain ⟨A, es', h1, h2, h3, blk, size, cnt, nz, h4, -, h5, h6, h7⟩ := C48_cgbr_counts M S B workers rows columns choose heavy es offR
    blockrows offC blockcols PR PC hBS hSR hSC hdense hdup hw hne hlen hgrid hrows hcols hbr hbc hin
  obtain ⟨res, b, P, k1, -⟩ := cgbr_mainB M S B workers rows columns choose heavy es offR blockrows offC blockcols PR PC
    hBS hSR hSC hdense hdup hw hne hlen hgrid hrows hcols hbr hbc hin
  rw [h1] at k1
  injection k1 with k1
  have kA : A = _ := congrArg Prod.fst k1
  have e1 : A.base.rows = rows := by rw [kA]; rfl
  have e2 : A.base.columns = columns := by rw [kA]; rfl
  have e3 : A.base.blockrows = blockrows := by rw [kA]; rfl
  have e4 : A.base.blockcols = blockcols := by rw [kA]; rfl
  have htag : ∀ k, (blk k).tag < 3 := by intro k; cases blk k <;> simp [MatrixBlock.tag]
  have hz : ∀ t, 3 ≤ t → t < 6 → cnt t = 0 ∧ nz t = 0 := by
    intro t a b
    obtain ⟨-, -, c, d⟩ := h5 t b
    have : (List.range A.base.nnzblocks).filter (fun k => (blk k).tag == t) = [] := by
      rw [List.filter_eq_nil_iff]
      intro k _
      have := htag k
      simp
      omega
    rw [this] at c d
    exact ⟨c, d⟩
  have z3 := hz 3 (by omega) (by omega)
  have z4 := hz 4 (by omega) (by omega)
  have z5 := hz 5 (by omega) (by omega)
  rw [← sum_six cnt z3.1 z5.1, z4.1] at h6
  rw [← sum_six nz z3.2 z5.2, z4.2] at h7
  refine ⟨A, es', A.base.nnzblocks, blk, cnt, nz, h1, h3, fun k hk => (h4 k hk).1, fun t ht => (h5 t (by omega)).2.2.1, by omega, by omega, ?_⟩
  unfold Cgbr.printInfo Gbr.printInfo
  rw [(h5 0 (by omega)).1, (h5 1 (by omega)).1, (h5 2 (by omega)).1, (h5 4 (by omega)).1, (h5 0 (by omega)).2.1, (h5 1 (by omega)).2.1,
    (h5 2 (by omega)).2.1, (h5 4 (by omega)).2.1, z4.1, z4.2, e1, e2, e3, e4, h2]
  rfl

/-- **C79**: `print_info` of CGBR2 with the library's factory, whatever the uninitialised member `balanced` holds: the four counts add up
to the totals, and that line of the output is whatever the member holds. -/
theorem C79_info_cgbr2 [NonUnitalNonAssocSemiring T] (M S B workers rows columns : Nat) (choose : Nat → Nat → Nat → FactoryChoice)
    (D : Prop) (es : List (Element T))
    (offR : List Nat) (blockrows : Nat) (offC : List Nat) (blockcols : Nat)
    (PR : Partition offR blockrows rows) (PC : Partition offC blockcols columns)
    (hBS : B ≤ S) (hSR : BlocksAtMost offR B) (hSC : BlocksAtMost offC B)
    (hdense : ∀ rs cs n, rs ≤ B → cs ≤ B → n < M → choose rs cs n = .dense → rs * cs < M ∧ D)
    (hdup : D → Distinct (ents es))
    (hw : 0 < workers) (hne : es ≠ []) (hlen : 2 * (es.length + 2) ≤ M) (hgrid : blockrows * blockcols < M)
    (hrows : rows + 1 < M) (hcols : columns < M) (hbr : blockrows ≤ rows) (hbc : blockcols ≤ columns)
    (hin : InRange (ents es) rows columns) :
    ∃ A es' nblocks, ∃ b n : Nat → Nat,
      cgbr2Create M workers (factoryDefault M S choose) es rows columns offR blockrows offC blockcols = .ok (A, es') ∧
      nblocks = (nonEmptyBlocks offR offC (ents es)).ncard ∧
      b 0 + b 1 + b 4 + b 2 = nblocks ∧ n 0 + n 1 + n 4 + n 2 = es.length ∧
      ∀ g, A.printInfo g = .ok [.title "Matrix info : ", .dims rows columns, .grid blockrows blockcols, .fill es.length nblocks,
        .percent es.length rows columns, .percent nblocks blockrows blockcols, .balanced g, .blocks (b 0) (b 1) (b 4) (b 2),
        .nonzeros (n 0) (n 1) (n 4) (n 2)] := by
  have hf := C12_default_factory_right (T := T) M S B hBS choose D hdense
  obtain ⟨res, P, h1, h2, h3, -⟩ := cgbr2_main M B workers rows columns _ D es offR blockrows offC blockcols PR PC hSR hSC
    (fun rs cs L => rs ≤ B ∧ cs ≤ B ∧ (D → Distinct L)) (fun rs cs L a b _ d => ⟨a, b, d⟩)
    (by
      intro rs cs g a1 a2 a3 a4 a5 a6 a7
      obtain ⟨t, b, g', b1, b2, b3, b4⟩ := hf rs cs g a1 a2 a3 a4 a7.1 a7.2.1 a5 a6 a7.2.2
      exact ⟨(t, b, g'), b1, b2, b3, b4, ⟨_, rfl⟩⟩)
    hdup hw hne hlen hgrid hrows hcols hbr hbc hin
  have H := prepared_blkIn (M := M) PR PC hne (by omega) hgrid hrows hcols hbr (by omega) hin
  have hty : ∀ k, k < (runs Element.block (prepared offR blockrows offC blockcols es)).length →
      (res k).1 = 0 ∨ (res k).1 = 1 ∨ (res k).1 = 4 ∨ (res k).1 = 2 := by
    intro k hk
    have h := (h2 k hk).ok
    unfold factoryDefault at h
    split at h <;>
    · obtain ⟨a, -, h⟩ := bind_ok h
      injection h with h
      rw [← h]; simp
  have hz : ∀ t, (t = 3 ∨ t = 5) → cntType res (runs Element.block (prepared offR blockrows offC blockcols es)).length t = 0 ∧
      nnzType res (runLen (prepared offR blockrows offC blockcols es)) (runs Element.block (prepared offR blockrows offC blockcols es)).length t = 0 := by
    intro t ht
    have h0 : ∀ k ∈ List.range (runs Element.block (prepared offR blockrows offC blockcols es)).length, ¬ ((res k).1 == t) = true := by
      intro k hk
      have := hty k (List.mem_range.1 hk)
      simp
      omega
    exact ⟨List.countP_eq_zero.2 h0, by unfold nnzType; rw [List.filter_eq_nil_iff.2 h0]; rfl⟩
  refine ⟨_, _, _, cntType res (runs Element.block (prepared offR blockrows offC blockcols es)).length,
    nnzType res (runLen (prepared offR blockrows offC blockcols es)) (runs Element.block (prepared offR blockrows offC blockcols es)).length,
    h1, rfl, ?_, ?_, fun g => ?_⟩
  · rw [sum_six _ (hz 3 (.inl rfl)).1 (hz 5 (.inr rfl)).1, sum_range_cntType res _ (fun k hk => (h2 k hk).type)]
    exact runs_ncard PR PC H hin
  · rw [sum_six _ (hz 3 (.inl rfl)).2 (hz 5 (.inr rfl)).2, sum_range_nnzType res _ _ (fun k hk => (h2 k hk).type),
      sum_runLen _ _ (Nat.le_refl _), runStart_length, prepared_length]
  · unfold Cgbr2.printInfo Gbr.printInfo
    simp only [gbrOf]
    rw [Buf.get_full (by omega), ok_bind, Buf.get_full (by omega), ok_bind, Buf.get_full (by omega), ok_bind, Buf.get_full (by omega), ok_bind,
      Buf.get_full (by omega), ok_bind, Buf.get_full (by omega), ok_bind, Buf.get_full (by omega), ok_bind, Buf.get_full (by omega), ok_bind,
      prepared_length, runs_ncard PR PC H hin]
    rfl

/-! ### partition_dump -/

theorem subM_one_mod (M n : Nat) (hn : 0 < n) (hM : 1 < M) : subM M n 1 = (n - 1) % M := by
  unfold subM
  rw [Nat.mod_eq_of_lt hM, show n + (M - 1) = (n - 1) + M by omega, Nat.add_mod_right]

theorem dumpLine_spec (M : Nat) (partition : List (List Nat)) (br : Nat) (c : List Nat) (h : partition[br]? = some c)
    (hlen : 0 < c.length) (hM : 1 < M) (hv : ∀ v ∈ c, v < M) (hs : c.Pairwise (· ≤ ·)) :
    dumpLine M partition br =
      .ok (br, (c.length - 1) % M, (List.range (c.length - 1)).map (fun i => c.getD (i + 1) 0 - c.getD i 0)) := by
  unfold dumpLine
  obtain ⟨hb, hc⟩ := List.getElem?_eq_some_iff.1 h
  rw [rd_ok hb, ok_bind, hc, subM_one_mod M _ hlen hM]
  have hloop : forLoop 1 c.length ([] : List Nat) (fun i out => (do
      let a ← rd c i
      let b ← rd c (i - 1)
      .ok (out ++ [subM M a b]) : C (List Nat))) = .ok ((List.range (c.length - 1)).map (fun i => c.getD (i + 1) 0 - c.getD i 0)) := by
    refine forLoop_closed' (fun n => (List.range (n - 1)).map (fun i => c.getD (i + 1) 0 - c.getD i 0)) (by omega) rfl rfl ?_
    intro i h1 h2
    rw [rd_ok h2, ok_bind, rd_ok (by omega), ok_bind]
    obtain ⟨j, rfl⟩ : ∃ j, i = j + 1 := ⟨i - 1, by omega⟩
    have hle : c[j] ≤ c[j + 1] := List.pairwise_iff_getElem.1 hs _ _ _ _ (by omega)
    simp only [Nat.add_sub_cancel]
    rw [subM_eq (hv _ (List.getElem_mem _)) hle, List.range_succ, List.map_append]
    simp [List.getD_eq_getElem?_getD, List.getElem?_eq_getElem h2, List.getElem?_eq_getElem (show j < c.length by omega)]
  rw [hloop, ok_bind]

/-- The sizes between boundaries sum to the last boundary less the first. -/
theorem sum_diff (c : List Nat) (lo hi : Nat) (hl : c.head? = some lo) (hh : c.getLast? = some hi) (hs : c.Pairwise (· ≤ ·)) :
    lo + ((List.range (c.length - 1)).map (fun i => c.getD (i + 1) 0 - c.getD i 0)).sum = hi := by
  have key : ∀ n, n < c.length → c.getD 0 0 + ((List.range n).map (fun i => c.getD (i + 1) 0 - c.getD i 0)).sum = c.getD n 0 := by
    intro n
    induction n with
    | zero => intro _; simp
    | succ n ih =>
      intro hn
      have := ih (by omega)
      have hle : c[n] ≤ c[n + 1] := List.pairwise_iff_getElem.1 hs _ _ _ _ (by omega)
      have d1 : c.getD n 0 = c[n] := by simp [List.getD_eq_getElem?_getD, List.getElem?_eq_getElem (show n < c.length by omega)]
      have d2 : c.getD (n + 1) 0 = c[n + 1] := by simp [List.getD_eq_getElem?_getD, List.getElem?_eq_getElem hn]
      rw [List.range_succ, List.map_append, List.sum_append]
      simp only [List.map_cons, List.map_nil, List.sum_cons, List.sum_nil]
      omega
  have hne : 0 < c.length := by cases c with | nil => simp at hl | cons => simp
  have := key (c.length - 1) (by omega)
  rw [List.head?_eq_getElem?] at hl
  rw [List.getLast?_eq_getElem?] at hh
  have d1 : c.getD 0 0 = lo := by rw [List.getD_eq_getElem?_getD, hl]; rfl
  have d2 : c.getD (c.length - 1) 0 = hi := by rw [List.getD_eq_getElem?_getD, hh]; rfl
  rw [d1, d2] at this
  exact this

/-- What `partition_dump` prints is right for a matrix with these `blockrow_ptr` and number of blocks: one line per block-row, with its
number, the number of chunks and the sizes of the chunks, which add up to the number of blocks of the block-row, and over all lines
to the number of blocks of the matrix. -/
def DumpRight (M : Nat) (partition : List (List Nat)) (blockrows : Nat) (blockrowPtr : Buf Nat) (nnzblocks : Nat) : Prop :=
  ∃ lines, partitionDump M partition blockrows = .ok lines ∧ lines.length = blockrows ∧
    (∀ i, i < blockrows → ∃ sizes lo hi, lines[i]? = some (i, sizes.length % M, sizes) ∧ sizes ≠ [] ∧
      blockrowPtr.get i = .ok lo ∧ blockrowPtr.get (i + 1) = .ok hi ∧ lo + sizes.sum = hi) ∧
    (lines.map (fun l => l.2.2.sum)).sum = nnzblocks

theorem dumpRight {M blockrows bc : Nat} {fR fC : Nat → Nat} {es : List (Element T)} {P : List (List Nat)} {rp : Buf Nat}
    (H : BlkIn M fR fC blockrows bc es) (hM : 1 < M) 
    (hP : ∀ i, i < blockrows → ∃ c, P[i]? = some c ∧ c.head? = some (rowPtrOf bc (runKeys Element.block es) i) ∧
      c.getLast? = some (rowPtrOf bc (runKeys Element.block es) (i + 1)) ∧ 2 ≤ c.length ∧ c.Pairwise (· ≤ ·))
    (hrp : ∀ i, i ≤ blockrows → rp.get i = .ok (rowPtrOf bc (runKeys Element.block es) i)) :
    DumpRight M P blockrows rp (runs Element.block es).length := by
  have hlt : ∀ i, rowPtrOf bc (runKeys Element.block es) i < M := by
    intro i
    refine Nat.lt_of_le_of_lt (rowPtrOf_le _ _ _) (Nat.lt_of_le_of_lt ?_ H.len)
    rw [runKeys_length]; exact runs_length_le _ _
  have hline : ∀ i, i < blockrows → ∃ sizes : List Nat, dumpLine M P i = .ok (i, sizes.length % M, sizes) ∧ sizes ≠ [] ∧
      rowPtrOf bc (runKeys Element.block es) i + sizes.sum = rowPtrOf bc (runKeys Element.block es) (i + 1) := by
    intro i hi
    obtain ⟨c, c1, first, last, size, mono⟩ := hP i hi
    have hle : ∀ v ∈ c, v ≤ rowPtrOf bc (runKeys Element.block es) (i + 1) := by
      intro v hv
      obtain ⟨j, hj, rfl⟩ := List.getElem_of_mem hv
      rw [List.getLast?_eq_getElem?] at last
      obtain ⟨hl, el⟩ := List.getElem?_eq_some_iff.1 last
      rw [← el]
      rcases Nat.eq_or_lt_of_le (show j ≤ c.length - 1 by omega) with h | h
      · simp [h]
      · exact List.pairwise_iff_getElem.1 mono _ _ _ _ h
    refine ⟨_, ?_, ?_, sum_diff c _ _ first last mono⟩
    · have := dumpLine_spec M P i c c1 (by omega) hM (fun v hv => Nat.lt_of_le_of_lt (hle v hv) (hlt _)) mono
      rw [List.length_map, List.length_range]
      exact this
    · intro h
      have := congrArg List.length h
      simp at this
      omega
  choose! sizes s1 s2 s3 using hline
  have h0 : rowPtrOf bc (runKeys Element.block es) 0 = 0 := by
    unfold rowPtrOf; simp
  have hend : rowPtrOf bc (runKeys Element.block es) blockrows = (runs Element.block es).length := by
    unfold rowPtrOf
    rw [List.countP_eq_length.2, runKeys_length]
    intro k hk
    obtain ⟨a, ha, rfl⟩ := (mem_runKeys _ _ _).1 hk
    simpa using H.row a ha
  refine ⟨(List.range blockrows).map (fun i => (i, (sizes i).length % M, sizes i)), ?_, by simp, ?_, ?_⟩
  · unfold partitionDump
    refine forLoop_closed' (fun n => (List.range n).map (fun i => (i, (sizes i).length % M, sizes i))) (Nat.zero_le _) rfl rfl ?_
    intro i _ hi
    rw [s1 i hi, ok_bind, List.range_succ, List.map_append]
    rfl
  · intro i hi
    exact ⟨sizes i, _, _, by simp [hi], s2 i hi, hrp i (by omega), hrp (i + 1) (by omega), s3 i hi⟩
  · rw [← hend, List.map_map]
    have : ∀ n, n ≤ blockrows → ((List.range n).map ((fun l : Nat × Nat × List Nat => l.2.2.sum) ∘ fun i => (i, (sizes i).length % M, sizes i))).sum =
        rowPtrOf bc (runKeys Element.block es) n := by
      intro n
      induction n with
      | zero => intro _; simp [h0]
      | succ n ih =>
        intro hn
        rw [List.range_succ, List.map_append, List.sum_append, ih (by omega), ← s3 n (by omega)]
        simp
    exact this blockrows (Nat.le_refl _)

/-- **C79**: `partition_dump` of a CSBR. -/
theorem C79_dump_csbr [Add T] [Mul T] (M workers rows columns : Nat) (es : List (Element T))
    (offR : List Nat) (blockrows : Nat) (offC : List Nat) (blockcols : Nat)
    (PR : Partition offR blockrows rows) (PC : Partition offC blockcols columns)
    (hw : 0 < workers) (hne : es ≠ []) (hlen : es.length < M) (hgrid : blockrows * blockcols < M)
    (hrows : rows + 1 < M) (hcols : columns < M) (hbr : blockrows ≤ rows) (hbc : blockcols ≤ columns)
    (hin : InRange (ents es) rows columns) :
    ∃ A es', cooToCsbr M workers es rows columns offR blockrows offC blockcols = .ok (A, es') ∧
      DumpRight M A.partition blockrows A.blockrowPtr A.nnzblocks := by
  have H := prepared_blkIn (M := M) PR PC hne hlen hgrid hrows hcols hbr (by omega) hin
  obtain ⟨P, hP, hl, hc⟩ := csbr_partition (rows := rows) (columns := columns) (offR := offR) (offC := offC) hw H
  have hb := csbrBuild_ok (workers := workers) H hbr hbc (fun i hi => PR.rd_ok i hi) (fun i hi => PC.rd_ok i hi)
    PR.at_last PC.at_last P hP
  refine ⟨{ csbrOf (offF offR) (offF offC) offR offC rows columns blockrows blockcols
    (prepared offR blockrows offC blockcols es) with partition := P }, prepared offR blockrows offC blockcols es, ?_, ?_⟩
  · unfold cooToCsbr
    rw [calculateBlockId_spec PR PC (by omega) (by omega) (by omega) hin, ok_bind]
    simp only
    show (do let A ← csbrBuild M workers (prepared offR blockrows offC blockcols es) rows columns offR blockrows offC blockcols
             Except.ok (A, prepared offR blockrows offC blockcols es)) = _
    rw [hb, ok_bind]
  · refine dumpRight H (by omega) ?_ ?_
    · intro i hi
      obtain ⟨c, c1, c2⟩ := hc i hi
      exact ⟨c, c1, c2.first, c2.last, c2.size, c2.mono⟩
    · intro i hi
      show Buf.get (Buf.full _ _) i = _
      rw [Buf.get_full (by omega), if_pos (by omega)]; rfl

/-- **C79**: `partition_dump` of a CGBR, as the driver blocked calls it when built with `PARTITION_DEBUG`: right if the matrix is not
balanced; a balanced one has no partition, and the function reads outside it. -/
theorem C79_dump_cgbr [NonUnitalNonAssocSemiring T] (M S B workers rows columns : Nat) (choose : Nat → Nat → Nat → BlockChoice)
    (heavy : Nat → Nat → List Nat → Bool) (es : List (Element T))
    (offR : List Nat) (blockrows : Nat) (offC : List Nat) (blockcols : Nat)
    (PR : Partition offR blockrows rows) (PC : Partition offC blockcols columns)
    (hBS : B ≤ S) (hSR : BlocksAtMost offR B) (hSC : BlocksAtMost offC B)
    (hdense : ∀ rs cs n, rs ≤ B → cs ≤ B → n ≤ es.length → choose rs cs n = .dense → rs * cs < M)
    (hdup : (∀ rs cs n, choose rs cs n ≠ .dense) ∨ Distinct (ents es))
    (hw : 0 < workers) (hne : es ≠ []) (hlen : 2 * (es.length + 2) ≤ M) (hgrid : blockrows * blockcols < M)
    (hrows : rows + 1 < M) (hcols : columns < M) (hbr : blockrows ≤ rows) (hbc : blockcols ≤ columns)
    (hin : InRange (ents es) rows columns) :
    ∃ A es', cooToCgbr M S workers choose heavy es rows columns offR blockrows offC blockcols = .ok (A, es') ∧
      (A.balanced = false → DumpRight M A.partition blockrows A.base.blockrowPtr A.base.nnzblocks) ∧
      (A.balanced = true → partitionDump M A.partition blockrows = .error .oob) := by
  obtain ⟨res, b, P, k1, -, -, k4⟩ := cgbr_mainB M S B workers rows columns choose heavy es offR blockrows offC blockcols PR PC
    hBS hSR hSC hdense hdup hw hne hlen hgrid hrows hcols hbr hbc hin
  have H := prepared_blkIn (M := M) PR PC hne (by omega) hgrid hrows hcols hbr (by omega) hin
  refine ⟨_, _, k1, fun hb => dumpRight H (by omega) (fun i hi => ?_) ?_, fun hb => ?_⟩
  · obtain ⟨c, c1, c2⟩ := k4 hb i hi
    exact ⟨c, c1, c2.first, c2.last, c2.size, c2.mono⟩
  · intro i hi
    show Buf.get (Buf.full _ _) i = _
    rw [Buf.get_full (by omega), if_pos (by omega)]; rfl
  · have hb' : b = true := hb
    subst hb'
    have hnil : P = [] := by
      unfold cooToCgbr at k1
      obtain ⟨_, -, k1⟩ := bind_ok k1
      obtain ⟨_, -, k1⟩ := bind_ok k1
      obtain ⟨_, -, k1⟩ := bind_ok k1
      obtain ⟨_, -, k1⟩ := bind_ok k1
      obtain ⟨bal, -, k1⟩ := bind_ok k1
      cases bal with
      | true =>
        simp only [if_true, ok_bind] at k1
        injection k1 with k1
        have k2 := congrArg Prod.fst k1
        injection k2 with _ _ k5
        exact k5.symm
      | false =>
        simp only [Bool.false_eq_true, if_false] at k1
        obtain ⟨p, -, k1⟩ := bind_ok k1
        injection k1 with k1
        have k2 := congrArg Prod.fst k1
        injection k2 with _ k3 _
        cases k3
    have hb0 : 0 < blockrows := by
      obtain ⟨e, he⟩ := List.exists_mem_of_ne_nil es hne
      have := PR.bidx_lt (hin _ (List.mem_map_of_mem (f := NZ.toEnt) he)).1
      omega
    show partitionDump M P blockrows = _
    rw [hnil]
    unfold partitionDump
    rw [forLoop_step hb0]
    rfl

/-! ### visual -/

theorem showVector_full (n : Nat) (f : Nat → T) : showVector (Buf.full n f) n = .ok ((List.range n).map (fun i => .item i (f i))) := by
  unfold showVector
  refine forLoop_closed' (fun n => (List.range n).map (fun i => .item i (f i))) (Nat.zero_le _) rfl rfl ?_
  intro i _ hi
  rw [Buf.get_full hi, ok_bind, List.range_succ, List.map_append]
  rfl

/-- The program visual prints the entries, the entries sorted by rows, the rows of the CSR matrix and its product with `x`; then, at the
conversion of the sorted entries to CSBR, it reads outside an array. -/
theorem C79_visual [Add T] [Mul T] [Zero T] (M workers rows columns : Nat)
    (stdSort : Nat → Nat → List (Triplet T) → C (List (Triplet T))) (junk : Triplet T → Nat)
    (es : List (Triplet T)) (offR : List Nat) (blockrows : Nat) (offC : List Nat) (blockcols : Nat)
    (PR : Partition offR blockrows rows) (PC : Partition offC blockcols columns)
    (hb : 0 < blockrows) (hM : es.length < M) (hrows : rows + 1 < M) (hcols : columns < M)
    (hbr : blockrows ≤ rows) (hbc : blockcols ≤ columns) (hin : InRange es rows columns)
    (nx : Nat) (hnx : columns ≤ nx) (x : Nat → T) (h20 : es.length ≤ 20) (hr20 : rows ≤ 20) :
    (∃ es', IsStableSort (fun a b : Triplet T => decide (a.row < b.row ∨ (a.row = b.row ∧ a.col ≤ b.col))) es es' ∧
      visualFirst M es rows columns (Buf.full nx x) = .ok (
        [.title "A (COO)"] ++ (es.map (fun e => .entry e.row e.col e.val) ++ [.newline]) ++
        [.title "A (sorted)"] ++ (es'.map (fun e => .entry e.row e.col e.val) ++ [.newline]) ++
        [.title "B (CSR)"] ++ (List.range rows).flatMap (fun i =>
          [.rowHead i] ++ (rowEntries es' i).map (fun e => .cell e.col e.val) ++ [.newline]) ++
        [.title "B * x"] ++ (List.range rows).map (fun i => .item i (spmvExact es x (fun _ => 0) i)), es')) ∧
    visualMain M workers stdSort [] junk es rows columns (Buf.full nx x) offR blockrows offC blockcols = .error .oob := by
  have hents : ∀ l : List (Triplet T), (ents l : List (Ent T)) = l := fun l => List.map_id l
  obtain ⟨A, es', h1, h2, h3⟩ := C79_show_csr (T := T) M rows columns es hM hrows hcols (by rw [hents]; exact hin)
  obtain ⟨A', es'', h4, h5, -⟩ := C01_csr_spmv (T := T) M rows columns es hM hrows hcols (by rw [hents]; exact hin) nx rows hnx
    (Nat.le_refl _) x (fun _ => 0)
  rw [h1] at h4
  injection h4 with h4
  injection h4 with e1 e2
  subst e1 e2
  rw [hents] at h5
  have hlen : es'.length = es.length := h2.1.length_eq
  have hfirst : visualFirst M es rows columns (Buf.full nx x) = .ok (
        [.title "A (COO)"] ++ (es.map (fun e => .entry e.row e.col e.val) ++ [.newline]) ++
        [.title "A (sorted)"] ++ (es'.map (fun e => .entry e.row e.col e.val) ++ [.newline]) ++
        [.title "B (CSR)"] ++ (List.range rows).flatMap (fun i =>
          [.rowHead i] ++ (rowEntries es' i).map (fun e => .cell e.col e.val) ++ [.newline]) ++
        [.title "B * x"] ++ (List.range rows).map (fun i => .item i (spmvExact es x (fun _ => 0) i)), es') := by
    unfold visualFirst
    have hv : showVector (Buf.full rows (spmvExact es x (fun _ => 0))) rows =
        .ok ((List.range rows).map (fun i => .item i (spmvExact es x (fun _ => 0) i))) := by
      unfold showVector
      refine forLoop_closed' (fun n => (List.range n).map (fun i => .item i (spmvExact es x (fun _ => 0) i))) (Nat.zero_le _) rfl rfl ?_
      intro i _ hi
      rw [Buf.get_full hi, ok_bind, List.range_succ, List.map_append]
      rfl
    rw [C79_show_nonzeros es, ok_bind, h1, ok_bind, C79_show_nonzeros es', ok_bind, h3, ok_bind]
    simp only
    rw [show (Buf.filled rows (0 : T)) = Buf.full rows (fun _ => 0) from rfl, h5, ok_bind, hv, ok_bind, hlen, if_pos h20, if_pos hr20,
      if_pos h20, hents, hents]
  refine ⟨⟨es', h2, hfirst⟩, ?_⟩
  unfold visualMain
  rw [hfirst, ok_bind]
  rw [C14_csbr_from_coo2_oob M workers rows columns stdSort es' [] offR blockrows offC blockcols PR PC hb (by simp; omega) (by omega) hbr hbc
    (fun e he => hin e (h2.1.mem_iff.1 he)) (by simp)]
  rfl

/-- If what the conversion finds behind the sorted entries is harmless, `std::sort` sorts and no position is given twice, visual goes on
to print the product with the CSBR and the second CSBR matrix, and prints the same numbers as for CSR. -/
theorem C79_visual_harmless [Add T] [Mul T] [Zero T] (M workers rows columns : Nat)
    (stdSort : Nat → Nat → List (Triplet T) → C (List (Triplet T))) (junk : Triplet T → Nat) (after : List (Triplet T))
    (es : List (Triplet T)) (offR : List Nat) (blockrows : Nat) (offC : List Nat) (blockcols : Nat) (hw : 0 < workers)
    (PR : Partition offR blockrows rows) (PC : Partition offC blockcols columns)
    (hne : es ≠ []) (hM : (es ++ after).length < M) (hgrid : blockrows * blockcols < M) (hrows : rows + 1 < M) (hcols : columns < M)
    (hbr : blockrows ≤ rows) (hbc : blockcols ≤ columns) (hin : InRange es rows columns) (hd : Distinct es)
    (hbehind : Behind offR blockrows rows es after) (hsort : SortsByBlockColumn offC stdSort)
    (nx : Nat) (hnx : columns ≤ nx) (x : Nat → T) :
    ∃ first es', visualFirst M es rows columns (Buf.full nx x) = .ok (first, es') ∧
      visualMain M workers stdSort after junk es rows columns (Buf.full nx x) offR blockrows offC blockcols = .ok (first ++
        [.title "C (CSBR) * x"] ++ (List.range rows).map (fun i => .item i (spmvExact es x (fun _ => 0) i)) ++
        [.title "E (CSBR(2)) * x"] ++ (List.range rows).map (fun i => .item i (spmvExact es x (fun _ => 0) i))) := by
  have hents : ∀ l : List (Triplet T), (ents l : List (Ent T)) = l := fun l => List.map_id l
  have hM' : es.length < M := by rw [List.length_append] at hM; omega
  obtain ⟨A, es', h1, h2, h3⟩ := C79_show_csr (T := T) M rows columns es hM' hrows hcols (by rw [hents]; exact hin)
  obtain ⟨A', es'', h4, h5, -⟩ := C01_csr_spmv (T := T) M rows columns es hM' hrows hcols (by rw [hents]; exact hin) nx rows hnx
    (Nat.le_refl _) x (fun _ => 0)
  rw [h1] at h4
  injection h4 with h4
  injection h4 with e1 e2
  subst e1 e2
  have hp : es'.Perm es := h2.1
  have hfirst : ∃ first, visualFirst M es rows columns (Buf.full nx x) = .ok (first, es') := by
    unfold visualFirst
    rw [C79_show_nonzeros es, ok_bind, h1, ok_bind, C79_show_nonzeros es', ok_bind, h3, ok_bind]
    simp only
    rw [show (Buf.filled rows (0 : T)) = Buf.full rows (fun _ => 0) from rfl, h5, ok_bind, showVector_full, ok_bind]
    exact ⟨_, rfl⟩
  obtain ⟨first, hfirst⟩ := hfirst
  refine ⟨first, es', hfirst, ?_⟩
  have hd' : Distinct es' := (hp.pairwise_iff (fun {a b} h h' => h ⟨h'.1.symm, h'.2.symm⟩)).2 hd
  obtain ⟨B, es2, -, b2, b3, b4⟩ := C14_harmless_behind M workers rows columns stdSort es' after offR blockrows offC blockcols hw PR PC
    (fun h => hne (by rw [h] at hp; exact List.length_eq_zero_iff.1 hp.length_eq.symm)) (by
      rw [List.length_append] at hM ⊢; rw [hp.length_eq]; exact hM) hgrid hrows hcols hbr hbc (fun e he => hin e (hp.mem_iff.1 he))
    ⟨hbehind.stops, fun o ho => (hbehind.first o ho).imp (fun ⟨e, he, h⟩ => ⟨e, hp.mem_iff.2 he, h⟩) id⟩ hsort nx rows hnx (Nat.le_refl _)
    x (fun _ => 0)
  have hex : spmvExact es' x (fun _ => 0) = spmvExact es x (fun _ => 0) := by
    have := spmvExact_perm hp hd' x (fun _ => (0 : T))
    exact this
  rw [b4 hd', hex] at b3
  have hel : ents (es.map fun e => (⟨e.row, e.col, e.val, junk e⟩ : Element T)) = es := by
    unfold ents
    rw [List.map_map]
    exact List.map_id es
  obtain ⟨E, es3, c1, c2⟩ := C09_csbr2_spmv (T := T) M rows columns (es.map fun e => (⟨e.row, e.col, e.val, junk e⟩ : Element T)) offR blockrows
    offC blockcols PR PC (by simpa using hne) (by rw [List.length_map]; exact hM') hgrid hrows hcols hbr hbc (by rw [hel]; exact hin)
    nx rows hnx (Nat.le_refl _) x (fun _ => 0)
  rw [hel] at c2
  unfold visualMain
  rw [hfirst, ok_bind, b2, ok_bind]
  simp only
  rw [show (Buf.filled rows (0 : T)) = Buf.full rows (fun _ => 0) from rfl, b3, ok_bind, showVector_full, ok_bind, c1, ok_bind]
  simp only
  rw [c2, ok_bind, showVector_full, ok_bind]

end Gsb
