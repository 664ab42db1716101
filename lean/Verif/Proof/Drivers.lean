import Verif.Model.Drivers
import Verif.Props.IoBin
import Verif.Props.IoMm
import Verif.Props.IoMm2
import Verif.Props.Counts
import Verif.Props.Bits
/-
Lemmas about the benchmark programs.
-/
namespace Gsb
variable {T τ : Type}

/-! ### Timing statistics -/

section
variable [LinearOrder τ]

theorem countP_lt_sorted {s : List τ} (hs : s.Pairwise (· ≤ ·)) {k : Nat} (hk : k < s.length) :
    s.countP (· < s[k]) ≤ k ∧ k < s.countP (· ≤ s[k]) := by
  have hp : ∀ i j (hi : i < s.length) (hj : j < s.length), i ≤ j → s[i] ≤ s[j] := by
    intro i j hi hj hij
    rcases Nat.lt_or_eq_of_le hij with h | h
    · exact List.pairwise_iff_getElem.1 hs i j hi hj h
    · subst h; exact le_refl _
  generalize hv : s[k] = v
  constructor
  · have h : s.countP (· < v) = (s.take k).countP (· < v) + (s.drop k).countP (· < v) := by
      rw [← List.countP_append, List.take_append_drop]
    have h2 : (s.drop k).countP (· < v) = 0 := by
      rw [List.countP_eq_zero]
      intro a ha
      obtain ⟨i, hi, rfl⟩ := List.getElem_of_mem ha
      rw [List.getElem_drop]
      have := hp k (k + i) hk (by rw [List.length_drop] at hi; omega) (by omega)
      rw [hv] at this
      simpa using this
    have h3 := List.countP_le_length (p := fun a => decide (a < v)) (l := s.take k)
    rw [List.length_take] at h3
    omega
  · have h : s.countP (· ≤ v) = (s.take (k + 1)).countP (· ≤ v) + (s.drop (k + 1)).countP (· ≤ v) := by
      rw [← List.countP_append, List.take_append_drop]
    have h2 : (s.take (k + 1)).countP (· ≤ v) = (s.take (k + 1)).length := by
      rw [List.countP_eq_length]
      intro a ha
      obtain ⟨i, hi, rfl⟩ := List.getElem_of_mem ha
      rw [List.getElem_take]
      rw [List.length_take] at hi
      have := hp i k (by omega) hk (by omega)
      rw [hv] at this
      simpa using this
    rw [List.length_take] at h2
    omega

theorem timingStats_ok [AddCommMonoid τ] (over : τ → Nat → τ) (times : List τ) (h0 : times ≠ []) (hM : times.length < 2 ^ 64) :
    ∃ s, timingStats over times = .ok s ∧ s.Of over times := by
  have hpos : 0 < times.length := List.length_pos_iff.2 h0
  have hperm : (times.mergeSort (fun a b => decide (a ≤ b))).Perm times := List.mergeSort_perm _ _
  have hsort : (times.mergeSort (fun a b => decide (a ≤ b))).Pairwise (· ≤ ·) := by
    have := List.pairwise_mergeSort (le := fun a b : τ => decide (a ≤ b))
      (fun a b c h1 h2 => by simp only [decide_eq_true_eq] at *; exact le_trans h1 h2)
      (fun a b => by simpa using le_total a b) times
    exact this.imp (by simp)
  unfold timingStats
  generalize hs : times.mergeSort (fun a b => decide (a ≤ b)) = s at hperm hsort
  have hl : s.length = times.length := hperm.length_eq
  have hlast : subM (2 ^ 64) times.length 1 = times.length - 1 := subM_eq hM (by omega)
  have g : ∀ k (h : k < s.length), (Buf.ofList s).get k = .ok s[k] := by
    intro k h
    exact Buf.get_ok (b := Buf.ofList s) (a := s[k]) h (by simp [Buf.ofList, h])
  simp only
  rw [g 0 (by omega), ok_bind, g (times.length / 2) (by omega), ok_bind, hlast, g (times.length - 1) (by omega), ok_bind]
  refine ⟨_, rfl, ⟨⟨hperm.mem_iff.1 (List.getElem_mem _), fun t ht => ?_⟩, ⟨hperm.mem_iff.1 (List.getElem_mem _), fun t ht => ?_⟩,
    ⟨hperm.mem_iff.1 (List.getElem_mem _), ?_, ?_⟩, ?_⟩⟩
  · obtain ⟨i, hi, rfl⟩ := List.getElem_of_mem (hperm.mem_iff.2 ht)
    rcases Nat.eq_zero_or_pos i with h | h
    · subst h; exact le_refl _
    · exact List.pairwise_iff_getElem.1 hsort 0 i (by omega) hi h
  · obtain ⟨i, hi, rfl⟩ := List.getElem_of_mem (hperm.mem_iff.2 ht)
    rcases Nat.lt_or_ge i (times.length - 1) with h | h
    · exact List.pairwise_iff_getElem.1 hsort i _ hi (by omega) h
    · have : i = times.length - 1 := by omega
      subst this; exact le_refl _
  · rw [← hperm.countP_eq]; exact (countP_lt_sorted hsort (k := times.length / 2) (by omega)).1
  · rw [← hperm.countP_eq]; exact (countP_lt_sorted hsort (k := times.length / 2) (by omega)).2
  · show over (s.foldl (· + ·) 0) times.length = _
    rw [← List.sum_eq_foldl, hperm.sum_eq]

end

/-! ### The benchmark loop -/

/-- A matrix object that multiplies by `g`. -/
structure MatRight (A : Mat T) (rows columns n : Nat) (g : (Nat → T) → (Nat → T) → Nat → T) : Prop where
  hrows : A.rows = rows
  hcolumns : A.columns = columns
  hnonzeros : A.nonzeros = .ok n
  hmul : ∀ x y, A.spmv (Buf.full columns x) (Buf.full rows y) = .ok (Buf.full rows (g x y))

/-- What a benchmark must report: its name, the number of non-zeros, the statistics of the running times, and
`y` after one call more than there are running times, `y` having started at zero. -/
structure Bench.Right [LinearOrder τ] [AddCommMonoid τ] [Zero T] (m : Machine T τ) (method : String) (rows n : Nat)
    (g : (Nat → T) → (Nat → T) → Nat → T) (b : Bench T τ) : Prop where
  isMethod : b.method = method
  isNonzeros : b.nonzeros = n
  isStats : b.stats.Of m.over ((List.range m.iterations).map (m.lap method))
  isY : b.y = Buf.full rows ((g (m.rnd method))^[m.iterations + 1] (fun _ => 0))

theorem benchmark_ok [LinearOrder τ] [AddCommMonoid τ] [Zero T] (m : Machine T τ) (A : Mat T) (method : String)
    {rows columns n : Nat} {g : (Nat → T) → (Nat → T) → Nat → T} (hA : MatRight A rows columns n g)
    (hi : 0 < m.iterations) (hM : m.iterations < 2 ^ 64) :
    ∃ b, benchmark m A method = .ok b ∧ b.Right m method rows n g := by
  obtain ⟨s, hs, hof⟩ := timingStats_ok m.over ((List.range m.iterations).map (m.lap method)) (by simp; omega)
    (by simpa using hM)
  refine ⟨⟨method, n, s, Buf.full rows ((g (m.rnd method))^[m.iterations + 1] (fun _ => 0))⟩, ?_, ⟨rfl, rfl, hof, rfl⟩⟩
  unfold benchmark
  simp only
  rw [hA.hrows, hA.hcolumns, hA.hmul, ok_bind,
    forLoop_closed' (s := Buf.full rows (g (m.rnd method) (fun _ => 0)))
      (fun i => Buf.full rows ((g (m.rnd method))^[i + 1] (fun _ => 0))) (Nat.zero_le _) rfl rfl
      (fun i _ _ => by rw [hA.hmul, ← Function.iterate_succ_apply' (g (m.rnd method))]),
    ok_bind, hA.hnonzeros, ok_bind, hs, ok_bind]

theorem benchmark_zero [LinearOrder τ] [AddCommMonoid τ] [Zero T] (m : Machine T τ) (A : Mat T) (method : String)
    {rows columns n : Nat} {g : (Nat → T) → (Nat → T) → Nat → T} (hA : MatRight A rows columns n g)
    (hi : m.iterations = 0) : benchmark m A method = .error .oob := by
  unfold benchmark
  simp only
  rw [hA.hrows, hA.hcolumns, hA.hmul, ok_bind, hi, forLoop_empty (Nat.le_refl _), ok_bind, hA.hnonzeros, ok_bind]
  simp [timingStats, List.mergeSort, Buf.get, Buf.ofList]

/-! ### Reading -/

theorem driverRead_ok (cv : Codec T) (hv : cv.Exact (fun _ => True)) (conv : Bytes → T) (fuel : Nat) (hfuel : 0 < fuel)
    (fs : FS) (name : String) (rows columns : Nat) (es : List (Ent T)) (hr : rows < 2 ^ 32) (hc : columns < 2 ^ 32)
    (hn : es.length < 2 ^ 32) (hin : InRange es rows columns) (h : FileHolds cv conv fs name rows columns es) :
    driverRead cv conv fuel fs name = .ok (some (rows, columns, es)) := by
  have key : ∀ A : CooA T, readCoo 4 cv conv fuel fs name = .ok (0, A) → A.rows = some rows → A.columns = some columns →
      A.ents = .ok es → driverRead cv conv fuel fs name = .ok (some (rows, columns, es)) := by
    intro A h1 h2 h3 h4
    unfold driverRead
    rw [h1, ok_bind]
    simp [h2, h3, h4]
  rcases h with ⟨hb, hf⟩ | ⟨hb, F, hF, hf, hfield, h1, h2, h3, h4, h5, hsym⟩
  · have h256 : (256 : Nat) ^ 4 = 2 ^ 32 := by norm_num
    have := readBinCoo_file (w := 4) (by decide) hv fs name rows columns es (by rw [h256]; exact hr) (by rw [h256]; exact hc)
      (by rw [h256]; exact hn) (by rw [h256]; exact fun e he => ⟨by have := hin e he; omega, by have := hin e he; omega⟩) []
      (by rw [List.append_nil]; exact hf)
    refine key _ (by rw [C46_bin 4 cv conv fuel fs name hb]; exact this) rfl rfl ?_
    exact mapM_ents es (some rows) (some columns)
  · subst h1 h2
    rcases hsym with ⟨hs, rfl⟩ | ⟨hs, rfl⟩
    · obtain ⟨A, e1, e2, e3, e4⟩ := C43_general (256 ^ 4) (by norm_num) conv fuel hfuel fs name hF hfield hs h3 h4 (by omega) hf
      exact key A (by rw [C46_mtx 4 cv conv fuel fs name hb]; exact e1) e2 e3 e4
    · obtain ⟨A, e1, e2, e3, e4⟩ := C43_symmetric (256 ^ 4) (by norm_num) conv fuel hfuel fs name hF hfield hs h3 h4 h5 hf
      exact key A (by rw [C46_mtx 4 cv conv fuel fs name hb]; exact e1) e2 e3 e4

theorem driverRead_fails {cv : Codec T} {conv : Bytes → T} {fuel : Nat} {fs : FS} {name : String} {code : Int} {A : CooA T}
    (h : readCoo 4 cv conv fuel fs name = .ok (code, A)) (hc : code ≠ 0) : driverRead cv conv fuel fs name = .ok none := by
  unfold driverRead
  rw [h, ok_bind]
  simp [hc]

/-! ### The conversions -/

theorem ents_asElements (es : List (Ent T)) : ents (asElements es) = es := by
  unfold ents asElements
  rw [List.map_map]
  conv => rhs; rw [← List.map_id es]
  rfl

section
variable [Add T] [Mul T]

theorem matRight_csr {ε : Type} [NZ ε T] (es : List ε) (rows columns : Nat) (hn : es.length < 2 ^ 32) (hr : rows + 1 < 2 ^ 32)
    (hc : columns < 2 ^ 32) (hin : InRange (ents es) rows columns) :
    ∃ A es', (cooToCsr (2 ^ 32) es rows columns : C (Csr T × List ε)) = .ok (A, es') ∧ es'.Perm es ∧
      MatRight A.toMat rows columns es.length (spmvExact (ents es)) := by
  obtain ⟨⟨A, es', h1, h2, h3, h4⟩, -⟩ := C48_csr_nonzeros (2 ^ 32) rows columns es hn hr hin
  refine ⟨A, es', h1, ?_, ⟨h3, h4, h2, fun x y => ?_⟩⟩
  · have hrow : ∀ e ∈ sortTriplets es, (NZ.toEnt e).row < rows := fun e he =>
      (hin _ (List.mem_map_of_mem (mem_sortTriplets.1 he))).1
    unfold cooToCsr at h1
    simp only [Bool.false_eq_true, if_false] at h1
    rw [csrBuild_spec (2 ^ 32) (2 ^ 32) _ rows columns (by rw [length_sortTriplets]; exact hn) hr hrow, ok_bind] at h1
    cases h1
    exact sortTriplets_perm es true
  · obtain ⟨A', es'', e1, e2, -⟩ := C01_csr_spmv (2 ^ 32) rows columns es hn hr hc hin columns rows (Nat.le_refl _) (Nat.le_refl _) x y
    rw [h1] at e1
    cases e1
    exact e2

theorem matRight_csr2 {ε : Type} [NZ ε T] (es : List ε) (rows columns : Nat) (hn : es.length < 2 ^ 32) (hr : rows + 1 < 2 ^ 32)
    (hin : InRange (ents es) rows columns) :
    ∃ A es', (cooToCsr2 (2 ^ 32) es rows columns : C (Csr2 T × List ε)) = .ok (A, es') ∧
      MatRight A.toMat rows columns es.length (spmvExact (ents es)) := by
  obtain ⟨-, A, es', h1, h2, h3, h4⟩ := C48_csr_nonzeros (2 ^ 32) rows columns es hn hr hin
  refine ⟨A, es', h1, ⟨h3, h4, h2, fun x y => ?_⟩⟩
  obtain ⟨A', es'', e1, e2, -⟩ := C02_csr2_spmv (2 ^ 32) rows columns es hn hr hin columns rows (Nat.le_refl _) (Nat.le_refl _) x y
  rw [h1] at e1
  cases e1
  exact e2

theorem matRight_cswr {ε : Type} [NZ ε T] (es : List ε) (rows columns width : Nat) (hw : 0 < width) (hwS : width ≤ 2 ^ 8)
    (hn : es.length < 2 ^ 32) (hr : rows + width < 2 ^ 32) (hin : InRange (ents es) rows columns) :
    ∃ A es', (cooToCswr (2 ^ 32) (2 ^ 8) es rows columns width : C (Cswr T × List ε)) = .ok (A, es') ∧
      MatRight A.toMat rows columns es.length (spmvExact (ents es)) := by
  have h1 := cooToCswr_spec (2 ^ 32) (2 ^ 8) es rows columns width hw hn hr (fun e he => (hin e he).1)
  refine ⟨_, _, h1, ⟨rfl, rfl, ?_, fun x y => ?_⟩⟩
  · show Except.ok (sortTripletsWide width es).length = _
    have hp : (sortTripletsWide width es).Perm es := List.mergeSort_perm _ _
    rw [hp.length_eq]
  · obtain ⟨A', es'', e1, -, -, e2⟩ := C07_cswr_spmv (2 ^ 32) (2 ^ 8) rows columns width es hw hwS hn hr hin x y
    rw [h1] at e1
    cases e1
    exact e2

variable [Zero T]

theorem constBlocks_max (n size : Nat) : constBlocks n size = max 1 (n / size) := by
  unfold constBlocks; generalize n / size = q; split <;> omega

theorem matRight_csbr (es : List (Element T)) (rows columns beta workers : Nat) (hb : 0 < beta) (hw : 0 < workers) (hne : es ≠ [])
    (hn : es.length < 2 ^ 32) (hgrid : max 1 (rows / beta) * max 1 (columns / beta) < 2 ^ 32) (hr : rows + 1 < 2 ^ 32)
    (hc : columns + 1 < 2 ^ 32) (hin : InRange (ents es) rows columns) :
    ∃ A es', (cooToCsbrConst (2 ^ 32) workers es rows columns beta beta : C (Csbr T × List (Element T))) = .ok (A, es') ∧
      es' = prepared (constOff rows beta) (constBlocks rows beta) (constOff columns beta) (constBlocks columns beta) es ∧
      MatRight A.toMat rows columns es.length (spmvExact (ents es)) := by
  obtain ⟨e0, he0⟩ := List.exists_mem_of_ne_nil es hne
  have h0 := hin _ (List.mem_map_of_mem (f := NZ.toEnt) he0)
  obtain ⟨P, hP⟩ := csbr_main (M := 2 ^ 32) (workers := workers) (es := es) hw (constOff_partition rows beta)
    (constOff_partition columns beta) hne hn (by rw [constBlocks_max, constBlocks_max]; exact hgrid) hr (by omega)
    (constBlocks_le (by omega)) (constBlocks_le (by omega)) hin
  have h0 : (cooToCsbrConst (2 ^ 32) workers es rows columns beta beta : C (Csbr T × List (Element T))) = cooToCsbr (2 ^ 32) workers es rows
      columns (constOff rows beta) (constBlocks rows beta) (constOff columns beta) (constBlocks columns beta) := by
    unfold cooToCsbrConst
    rw [constOffsets_spec hb (by omega) hr, ok_bind, constOffsets_spec hb (by omega) hc, ok_bind]
  have h1 := h0.trans hP
  refine ⟨_, _, h1, rfl, ⟨rfl, rfl, ?_, fun x y => ?_⟩⟩
  · show Except.ok _ = Except.ok _
    exact congrArg _ prepared_length
  · obtain ⟨A', es'', e1, e2⟩ := C08_csbr_const (2 ^ 32) workers rows columns beta beta es hb hb hw hne hn hgrid hr hc hin columns rows
      (Nat.le_refl _) (Nat.le_refl _) x y
    rw [h1] at e1
    cases e1
    exact e2

theorem matRight_csbr2 (es : List (Element T)) (rows columns beta : Nat) (hb : 0 < beta) (hne : es ≠ [])
    (hn : es.length < 2 ^ 32) (hgrid : max 1 (rows / beta) * max 1 (columns / beta) < 2 ^ 32) (hr : rows + 1 < 2 ^ 32)
    (hc : columns + 1 < 2 ^ 32) (hin : InRange (ents es) rows columns) :
    ∃ A es', (cooToCsbr2Const (2 ^ 32) es rows columns beta beta : C (Csbr2 T × List (Element T))) = .ok (A, es') ∧
      es' = prepared (constOff rows beta) (constBlocks rows beta) (constOff columns beta) (constBlocks columns beta) es ∧
      MatRight A.toMat rows columns es.length (spmvExact (ents es)) := by
  obtain ⟨e0, he0⟩ := List.exists_mem_of_ne_nil es hne
  have h0 := hin _ (List.mem_map_of_mem (f := NZ.toEnt) he0)
  have hP := csbr2_main (M := 2 ^ 32) (es := es) (constOff_partition rows beta)
    (constOff_partition columns beta) hne hn (by rw [constBlocks_max, constBlocks_max]; exact hgrid) hr (by omega)
    (constBlocks_le (by omega)) (constBlocks_le (by omega)) hin
  have h0 : (cooToCsbr2Const (2 ^ 32) es rows columns beta beta : C (Csbr2 T × List (Element T))) = cooToCsbr2 (2 ^ 32) es rows
      columns (constOff rows beta) (constBlocks rows beta) (constOff columns beta) (constBlocks columns beta) := by
    unfold cooToCsbr2Const
    rw [constOffsets_spec hb (by omega) hr, ok_bind, constOffsets_spec hb (by omega) hc, ok_bind]
  have h1 := h0.trans hP
  refine ⟨_, _, h1, rfl, ⟨rfl, rfl, ?_, fun x y => ?_⟩⟩
  · show Except.ok _ = Except.ok _
    exact congrArg _ prepared_length
  · obtain ⟨A', es'', e1, e2⟩ := C09_csbr2_const (2 ^ 32) rows columns beta beta es hb hb hne hn hgrid hr hc hin columns rows
      (Nat.le_refl _) (Nat.le_refl _) x y
    rw [h1] at e1
    cases e1
    exact e2

end

section
variable [CommSemiring T]

theorem matRight_cgbrB (S : Nat) (hS : 2 ^ 16 - 1 ≤ S) (choose : Nat → Nat → Nat → BlockChoice)
    (heavy : Nat → Nat → List Nat → Bool) (es : List (Element T)) (rows columns beta workers : Nat)
    (hdup : (∀ rs cs n, choose rs cs n ≠ .dense) ∨ Distinct (ents es))
    (hw0 : 0 < workers) (hle : beta ≤ 2 ^ 15) (hb : beta ≠ 0) (hne : es ≠ [])
    (hn : 2 * (es.length + 2) ≤ 2 ^ 32) (hgrid : max 1 (rows / beta) * max 1 (columns / beta) < 2 ^ 32) (hr : rows + 1 < 2 ^ 32)
    (hc : columns + 1 < 2 ^ 32) (hin : InRange (ents es) rows columns) :
    ∃ A es', (cooToCgbrConst (2 ^ 32) S workers choose heavy es rows columns beta beta : C (Cgbr T × List (Element T))) =
        .ok (A, es') ∧ MatRight A.toMat rows columns es.length (spmvSum (ents es)) := by
  obtain ⟨e0, he0⟩ := List.exists_mem_of_ne_nil es hne
  have h0 := hin _ (List.mem_map_of_mem (f := NZ.toEnt) he0)
  have hdense : ∀ rs cs n, rs ≤ 2 ^ 16 - 1 → cs ≤ 2 ^ 16 - 1 → n ≤ es.length → choose rs cs n = .dense → rs * cs < 2 ^ 32 :=
    fun rs cs n a1 a2 _ _ => Nat.lt_of_le_of_lt (Nat.mul_le_mul a1 a2) (by norm_num)
  obtain ⟨res, b, P, hP, -⟩ := cgbr_mainB (2 ^ 32) S (2 ^ 16 - 1) workers rows columns choose heavy es _ _ _ _ (constOff_partition rows beta)
    (constOff_partition columns beta) hS (blocksAtMost_const (by omega) (by omega)) (blocksAtMost_const (by omega) (by omega))
    hdense hdup hw0 hne hn
    (by rw [constBlocks_max, constBlocks_max]; exact hgrid) hr (by omega)
    (constBlocks_le (by omega)) (constBlocks_le (by omega)) hin
  have h0 : (cooToCgbrConst (2 ^ 32) S workers choose heavy es rows columns beta beta : C (Cgbr T × List (Element T))) =
      cooToCgbr (2 ^ 32) S workers choose heavy es rows columns (constOff rows beta) (constBlocks rows beta) (constOff columns beta) (constBlocks columns beta) := by
    unfold cooToCgbrConst
    rw [constOffsets_spec (by omega) (by omega) hr, ok_bind, constOffsets_spec (by omega) (by omega) hc, ok_bind]
  have h1 := h0.trans hP
  refine ⟨_, _, h1, ⟨rfl, rfl, ?_, fun x y => ?_⟩⟩
  · show Except.ok _ = Except.ok _
    exact congrArg _ prepared_length
  · obtain ⟨A', es'', e1, e2⟩ := C11_cgbr_const_bound (2 ^ 32) S (2 ^ 16 - 1) workers rows columns beta beta choose heavy es (by omega)
      (by omega) hS (by omega) (by omega) hdense hdup hw0 hne hn hgrid hr hc hin
    rw [h1] at e1
    cases e1
    exact (e2 columns rows (Nat.le_refl _) (Nat.le_refl _) x y).1

theorem matRight_cgbr (logbeta : Nat → Nat → Nat) (val : Nat) (choose : Nat → Nat → Nat → BlockChoice)
    (heavy : Nat → Nat → List Nat → Bool) (es : List (Element T)) (rows columns beta workers : Nat)
    (hdup : (∀ rs cs n, choose rs cs n ≠ .dense) ∨ Distinct (ents es))
    (hval : val ≤ 8) (hw0 : 0 < workers) (hw : 8 * workers < 2 ^ 31)
    (hpick : pickBlockSize 32 logbeta rows columns val workers = .ok beta) (hb : beta ≠ 0) (hne : es ≠ [])
    (hn : 2 * (es.length + 2) ≤ 2 ^ 32) (hgrid : max 1 (rows / beta) * max 1 (columns / beta) < 2 ^ 32) (hr : rows + 1 < 2 ^ 32)
    (hc : columns + 1 < 2 ^ 32) (hin : InRange (ents es) rows columns) :
    ∃ A es', (cooToCgbrConst (2 ^ 32) (2 ^ 16) workers choose heavy es rows columns beta beta : C (Cgbr T × List (Element T))) =
        .ok (A, es') ∧ MatRight A.toMat rows columns es.length (spmvSum (ents es)) :=
  matRight_cgbrB (2 ^ 16) (by norm_num) choose heavy es rows columns beta workers hdup hw0
    (pick_le (by omega) (by omega) hval hw hpick) hb hne hn hgrid hr hc hin

/-- The default factory with 16-bit local indices on blocks of at most 65535 × 65535. -/
theorem factory_right16 (choose : Nat → Nat → Nat → FactoryChoice) (D : Prop) (hD : ∀ rs cs n, choose rs cs n = .dense → D) :
    FactoryRight (2 ^ 32) (2 ^ 16 - 1) D (factoryDefault (2 ^ 32) (2 ^ 16) choose : MakeBlock (BlockObj T) T) := by
  intro rs cs g a1 a2 a3 a4 s1 s2 a5 a6 a7
  obtain ⟨r, h⟩ := goodMake_factory (2 ^ 32) (2 ^ 16) choose rs cs g a1 a2 a3 a4 a5 a6 (by
    unfold factoryOk
    split
    · exact ⟨by omega, by omega⟩
    · omega
    · omega
    · next h =>
      refine ⟨Nat.lt_of_le_of_lt (Nat.mul_le_mul s1 s2) (by norm_num), a7 (hD _ _ _ h)⟩)
  exact ⟨r.1, r.2.1, r.2.2, h.ok, h.type, h.length, h.mul⟩

theorem matRight_cgbr2B (choose : Nat → Nat → Nat → FactoryChoice) (balanced : Bool)
    (es : List (Element T)) (rows columns beta workers : Nat)
    (hdup : (∀ rs cs n, choose rs cs n ≠ .dense) ∨ Distinct (ents es)) (hw0 : 0 < workers) (hle : beta ≤ 2 ^ 15)
    (hb : beta ≠ 0) (hne : es ≠ [])
    (hn : 2 * (es.length + 2) ≤ 2 ^ 32) (hgrid : max 1 (rows / beta) * max 1 (columns / beta) < 2 ^ 32) (hr : rows + 1 < 2 ^ 32)
    (hc : columns + 1 < 2 ^ 32) (hin : InRange (ents es) rows columns) :
    ∃ A es', (cooToCgbr2Const (2 ^ 32) (2 ^ 16) workers choose es rows columns beta beta : C (Cgbr2 T × List (Element T))) =
        .ok (A, es') ∧ MatRight (A.toMat balanced) rows columns es.length (spmvSum (ents es)) := by
  obtain ⟨e0, he0⟩ := List.exists_mem_of_ne_nil es hne
  have h0 := hin _ (List.mem_map_of_mem (f := NZ.toEnt) he0)
  have hf := factory_right16 (T := T) choose (∃ rs cs n, choose rs cs n = .dense) (fun rs cs n h => ⟨rs, cs, n, h⟩)
  obtain ⟨res, P, hP, -, -, hmul⟩ := cgbr2_main (2 ^ 32) (2 ^ 16 - 1) workers rows columns (factoryDefault (2 ^ 32) (2 ^ 16) choose)
    (∃ rs cs n, choose rs cs n = .dense) es _ _ _ _ (constOff_partition rows beta)
    (constOff_partition columns beta) (blocksAtMost_const (by omega) (by omega)) (blocksAtMost_const (by omega) (by omega))
    (fun rs cs L => rs ≤ 2 ^ 16 - 1 ∧ cs ≤ 2 ^ 16 - 1 ∧ ((∃ rs cs n, choose rs cs n = .dense) → Distinct L))
    (fun rs cs L a b _ d => ⟨a, b, d⟩)
    (by
      intro rs cs g a1 a2 a3 a4 a5 a6 a7
      obtain ⟨t, b, g', b1, b2, b3, b4⟩ := hf rs cs g a1 a2 a3 a4 a7.1 a7.2.1 a5 a6 a7.2.2
      exact ⟨(t, b, g'), b1, b2, b3, b4, ⟨_, rfl⟩⟩)
    (fun ⟨rs, cs, n, h⟩ => hdup.elim (fun h' => absurd h (h' rs cs n)) id) hw0 hne hn
    (by rw [constBlocks_max, constBlocks_max]; exact hgrid) hr (by omega)
    (constBlocks_le (by omega)) (constBlocks_le (by omega)) hin
  have h0 : (cooToCgbr2Const (2 ^ 32) (2 ^ 16) workers choose es rows columns beta beta : C (Cgbr2 T × List (Element T))) =
      cgbr2Create (2 ^ 32) workers (factoryDefault (2 ^ 32) (2 ^ 16) choose) es rows columns (constOff rows beta) (constBlocks rows beta) (constOff columns beta) (constBlocks columns beta) := by
    unfold cooToCgbr2Const
    rw [constOffsets_spec (by omega) (by omega) hr, ok_bind, constOffsets_spec (by omega) (by omega) hc, ok_bind]
  have h1 := h0.trans hP
  refine ⟨_, _, h1, ⟨rfl, rfl, ?_, fun x y => ?_⟩⟩
  · show Except.ok _ = Except.ok _
    exact congrArg _ prepared_length
  · exact hmul balanced columns rows (Nat.le_refl _) (Nat.le_refl _) x y

theorem matRight_cgbr2 (logbeta : Nat → Nat → Nat) (val : Nat) (choose : Nat → Nat → Nat → FactoryChoice) (balanced : Bool)
    (es : List (Element T)) (rows columns beta workers : Nat)
    (hdup : (∀ rs cs n, choose rs cs n ≠ .dense) ∨ Distinct (ents es)) (hval : val ≤ 8) (hw0 : 0 < workers) (hw : 8 * workers < 2 ^ 31)
    (hpick : pickBlockSize 32 logbeta rows columns val workers = .ok beta) (hb : beta ≠ 0) (hne : es ≠ [])
    (hn : 2 * (es.length + 2) ≤ 2 ^ 32) (hgrid : max 1 (rows / beta) * max 1 (columns / beta) < 2 ^ 32) (hr : rows + 1 < 2 ^ 32)
    (hc : columns + 1 < 2 ^ 32) (hin : InRange (ents es) rows columns) :
    ∃ A es', (cooToCgbr2Const (2 ^ 32) (2 ^ 16) workers choose es rows columns beta beta : C (Cgbr2 T × List (Element T))) =
        .ok (A, es') ∧ MatRight (A.toMat balanced) rows columns es.length (spmvSum (ents es)) :=
  matRight_cgbr2B choose balanced es rows columns beta workers hdup hw0 (pick_le (by omega) (by omega) hval hw hpick) hb hne hn hgrid hr hc hin

end

end Gsb
