import Verif.Model.Rates
import Verif.Spec.Rates
import Verif.Props.Drivers
import Mathlib.Tactic.Linarith
import Mathlib.Tactic.FieldSimp
import Mathlib.Tactic.Ring
import Verif.Props.Total
import Verif.Props.Cross
import Mathlib.Algebra.Order.Field.Basic
import Mathlib.Algebra.Order.BigOperators.Group.List
import Mathlib.Algebra.BigOperators.Group.Finset.Basic
/-
C89: the operations a multiplication performs, and the rates reported.
-/
namespace Gsb

/-! ### Operations -/

theorem Ops.add_adds (a b : Ops) : (a + b).adds = a.adds + b.adds + 1 := rfl
theorem Ops.add_muls (a b : Ops) : (a + b).muls = a.muls + b.muls := rfl
theorem Ops.mul_adds (a b : Ops) : (a * b).adds = a.adds + b.adds := rfl
theorem Ops.mul_muls (a b : Ops) : (a * b).muls = a.muls + b.muls + 1 := rfl
theorem Ops.zero_adds : (0 : Ops).adds = 0 := rfl
theorem Ops.zero_muls : (0 : Ops).muls = 0 := rfl

theorem ops_noPad {l : List Ops} {a : Ops} (h : Total noPad l a) :
    a.adds + 1 = (l.map Ops.adds).sum + l.length ∧ a.muls = (l.map Ops.muls).sum := by
  induction h with
  | one a => simp
  | pad h => exact h.elim
  | add _ _ h1 h2 =>
    simp only [Ops.add_adds, Ops.add_muls, List.map_append, List.sum_append, List.length_append]
    omega
  | perm hp _ ih => rw [← (hp.map _).sum_eq, ← (hp.map _).sum_eq, ← hp.length_eq]; exact ih

theorem ops_pad {P : Ops → Prop} {l : List Ops} {a : Ops} (h : Total P l a) :
    (l.map Ops.adds).sum + l.length ≤ a.adds + 1 ∧ (l.map Ops.muls).sum ≤ a.muls := by
  induction h with
  | one a => simp
  | pad h => simp
  | add _ _ h1 h2 =>
    simp only [Ops.add_adds, Ops.add_muls, List.map_append, List.sum_append, List.length_append]
    omega
  | perm hp _ ih => rw [← (hp.map _).sum_eq, ← (hp.map _).sum_eq, ← hp.length_eq]; exact ih

/-- Every entry is in one of the rows. -/
theorem rowEntries_length (es : List (Ent Ops)) (rows columns : Nat) (hin : InRange es rows columns) :
    ∑ i ∈ Finset.range rows, (rowEntries es i).length = es.length := by
  induction es with
  | nil => simp [rowEntries]
  | cons e es ih =>
    have h := ih (fun e' h' => hin e' (List.mem_cons_of_mem _ h'))
    have he := (hin e List.mem_cons_self).1
    have : ∀ i, (rowEntries (e :: es) i).length = (if i = e.row then 1 else 0) + (rowEntries es i).length := by
      intro i
      simp only [rowEntries, List.filter_cons, beq_iff_eq]
      by_cases hi : e.row = i
      · simp [hi]; omega
      · simp [hi, Ne.symm hi]
    simp only [this, Finset.sum_add_distrib, h, List.length_cons]
    rw [Finset.sum_ite_eq' (Finset.range rows) e.row (fun _ => 1), if_pos (Finset.mem_range.2 he)]
    omega

theorem products_ops {es : List (Ent Ops)} (h0 : ∀ e ∈ es, e.val = 0) (i : Nat) :
    ((products es (fun _ => (0 : Ops)) i).map Ops.adds).sum = 0 ∧
      ((products es (fun _ => (0 : Ops)) i).map Ops.muls).sum = (rowEntries es i).length := by
  have : ∀ l : List (Ent Ops), (∀ e ∈ l, e.val = 0) →
      ((l.map (fun e => e.val * (0 : Ops))).map Ops.adds).sum = 0 ∧
      ((l.map (fun e => e.val * (0 : Ops))).map Ops.muls).sum = l.length := by
    intro l
    induction l with
    | nil => intro _; simp
    | cons e l ih =>
      intro h
      obtain ⟨a, b⟩ := ih (fun e' h' => h e' (List.mem_cons_of_mem _ h'))
      rw [List.map_cons, List.map_cons, List.map_cons, List.sum_cons, List.sum_cons, a, b, h e List.mem_cons_self]
      exact ⟨rfl, by rw [List.length_cons, Nat.add_comm]; rfl⟩
  exact this (rowEntries es i) (fun e h => h0 e (List.mem_filter.1 h).1)

theorem took_noPad {es : List (Ent Ops)} {rows columns : Nat} (hin : InRange es rows columns) (h0 : ∀ e ∈ es, e.val = 0) {y' : Nat → Ops}
    (h : RowTotals noPad es rows (fun _ => 0) (fun _ => 0) y') : Took rows y' es.length es.length := by
  have key : ∀ i, i < rows → (y' i).adds = (rowEntries es i).length ∧ (y' i).muls = (rowEntries es i).length := by
    intro i hi
    have := ops_noPad (h i hi)
    obtain ⟨a, b⟩ := products_ops h0 i
    have hl : (products es (fun _ => (0 : Ops)) i).length = (rowEntries es i).length := by simp [products]
    simp only [List.map_cons, List.sum_cons, a, b, Ops.zero_adds, Ops.zero_muls, List.length_cons, hl] at this
    omega
  refine ⟨?_, ?_⟩ <;> rw [← rowEntries_length es rows columns hin] <;> refine Finset.sum_congr rfl fun i hi => ?_
  · exact (key i (Finset.mem_range.1 hi)).1
  · exact (key i (Finset.mem_range.1 hi)).2

theorem took_pad {P : Ops → Prop} {es : List (Ent Ops)} {rows columns : Nat} (hin : InRange es rows columns) (h0 : ∀ e ∈ es, e.val = 0)
    {y' : Nat → Ops} (h : RowTotals P es rows (fun _ => 0) (fun _ => 0) y') : TookAtLeast rows y' es.length es.length := by
  have key : ∀ i, i < rows → (rowEntries es i).length ≤ (y' i).adds ∧ (rowEntries es i).length ≤ (y' i).muls := by
    intro i hi
    have := ops_pad (h i hi)
    obtain ⟨a, b⟩ := products_ops h0 i
    have hl : (products es (fun _ => (0 : Ops)) i).length = (rowEntries es i).length := by simp [products]
    simp only [List.map_cons, List.sum_cons, a, b, Ops.zero_adds, Ops.zero_muls, List.length_cons, hl] at this
    omega
  refine ⟨?_, ?_⟩ <;> rw [← rowEntries_length es rows columns hin] <;> refine Finset.sum_le_sum fun i hi => ?_
  · exact (key i (Finset.mem_range.1 hi)).1
  · exact (key i (Finset.mem_range.1 hi)).2

theorem full_inj {n : Nat} {f g : Nat → Ops} (h : Buf.full n f = Buf.full n g) : f = g := by
  funext k
  have := congrFun (congrArg Buf.dat h) k
  simpa [Buf.full] using this

/-- **C89**, operations: multiplying by a matrix of `nnz` entries takes exactly `nnz` additions and `nnz` multiplications in
CSR, CSR2, CSWR, CSBR, CSBR2, CSBR3 and as an array of triplets. -/
theorem C89_operations (M S workers rows columns width bs : Nat) (es : List (Element Ops)) (h0 : ∀ e ∈ ents es, e.val = 0)
    (offR : List Nat) (blockrows : Nat) (offC : List Nat) (blockcols : Nat)
    (PR : Partition offR blockrows rows) (PC : Partition offC blockcols columns)
    (hw : 0 < workers) (hne : es ≠ []) (hlen : es.length + 1 < M) (hgrid : blockrows * blockcols < M)
    (hbr : blockrows ≤ rows) (hbc : blockcols ≤ columns)
    (hwidth : 0 < width) (hwS : width ≤ S) (hbs : 0 < bs) (hbS : bs ≤ S)
    (hgrid3 : ((rows + bs - 1) / bs) * ((columns + bs - 1) / bs) < M)
    (hrows : rows + bs + width < M) (hcols : columns + bs < M) (hin : InRange (ents es) rows columns) :
    ∃ y', Took rows y' es.length es.length ∧
      (∃ A es', cooToCsr M es rows columns = .ok (A, es') ∧
        A.spmv (Buf.full columns fun _ => 0) 0 (Buf.full rows fun _ => 0) 0 = .ok (Buf.full rows y')) ∧
      (∃ A es', cooToCsr2 M es rows columns = .ok (A, es') ∧
        A.spmv (Buf.full columns fun _ => 0) (Buf.full rows fun _ => 0) = .ok (Buf.full rows y')) ∧
      (∃ A es', cooToCswr M S es rows columns width = .ok (A, es') ∧
        A.spmv M (Buf.full columns fun _ => 0) (Buf.full rows fun _ => 0) = .ok (Buf.full rows y')) ∧
      (∃ A es', cooToCsbr M workers es rows columns offR blockrows offC blockcols = .ok (A, es') ∧
        A.spmv M (Buf.full columns fun _ => 0) (Buf.full rows fun _ => 0) = .ok (Buf.full rows y')) ∧
      (∃ A es', cooToCsbr2 M es rows columns offR blockrows offC blockcols = .ok (A, es') ∧
        A.spmv M (Buf.full columns fun _ => 0) (Buf.full rows fun _ => 0) = .ok (Buf.full rows y')) ∧
      (∃ A es', cooToCsbr3 M S es rows columns bs = .ok (A, es') ∧
        A.spmvBalanced M (Buf.full columns fun _ => 0) (Buf.full rows fun _ => 0) = .ok (Buf.full rows y')) ∧
      spmvCooArray (Buf.ofList (sortTriplets es)) es.length (Buf.full columns fun _ => 0) 0 (Buf.full rows fun _ => 0) 0 =
        .ok (Buf.full rows y') := by
  obtain ⟨y', h⟩ := C15_formats_agree M S workers rows columns width bs es offR blockrows offC blockcols PR PC hw hne hlen hgrid hbr hbc
    hwidth hwS hbs hbS hgrid3 hrows hcols hin (fun _ => 0) (fun _ => 0)
  refine ⟨y', ?_, h⟩
  obtain ⟨A, es1, h1, h2⟩ := h.1
  obtain ⟨A', es2, h3, h4, -⟩ := C01_csr_spmv M rows columns es (by omega) (by omega) (by omega) hin columns rows (Nat.le_refl _)
    (Nat.le_refl _) (fun _ => 0) (fun _ => 0)
  have e : A = A' := by rw [h1] at h3; exact congrArg Prod.fst (Except.ok.inj h3)
  subst e
  rw [h2] at h4
  rw [full_inj (Except.ok.inj h4)]
  have := took_noPad hin h0 (C76_exact (ents es) rows (fun _ => 0) (fun _ => 0))
  simpa [ents] using this

/-- **C89**, operations: CGBR takes at least `nnz` of each. -/
theorem C89_cgbr (M S B workers rows columns : Nat) (choose : Nat → Nat → Nat → BlockChoice)
    (heavy : Nat → Nat → List Nat → Bool) (es : List (Element Ops)) (h0 : ∀ e ∈ ents es, e.val = 0)
    (offR : List Nat) (blockrows : Nat) (offC : List Nat) (blockcols : Nat)
    (PR : Partition offR blockrows rows) (PC : Partition offC blockcols columns)
    (hBS : B ≤ S) (hSR : BlocksAtMost offR B) (hSC : BlocksAtMost offC B)
    (hdense : ∀ rs cs n, rs ≤ B → cs ≤ B → n ≤ es.length → choose rs cs n = .dense → rs * cs < M)
    (hdup : (∀ rs cs n, choose rs cs n ≠ .dense) ∨ Distinct (ents es))
    (hw : 0 < workers) (hne : es ≠ []) (hlen : 2 * (es.length + 2) ≤ M) (hgrid : blockrows * blockcols < M)
    (hrows : rows + 1 < M) (hcols : columns < M) (hbr : blockrows ≤ rows) (hbc : blockcols ≤ columns)
    (hin : InRange (ents es) rows columns) :
    ∃ A es' y', cooToCgbr M S workers choose heavy es rows columns offR blockrows offC blockcols = .ok (A, es') ∧
      A.spmv M (Buf.full columns fun _ => 0) (Buf.full rows fun _ => 0) = .ok (Buf.full rows y') ∧
      TookAtLeast rows y' es.length es.length := by
  obtain ⟨A, es', h1, h2⟩ := C76_cgbr M S B workers rows columns choose heavy es offR blockrows offC blockcols PR PC hBS hSR hSC hdense
    hdup hw hne hlen hgrid hrows hcols hbr hbc hin
  obtain ⟨⟨y', a, -, b, -⟩, -⟩ := h2 columns (Nat.le_refl _) (fun _ => 0) (fun _ => 0)
  refine ⟨A, es', y', h1, b rows (Nat.le_refl _), ?_⟩
  have := took_pad hin h0 a
  simpa [ents] using this

theorem denseAcc_ops (d x : Nat → Ops) (hd : ∀ j, d j = 0) (hx : ∀ j, x j = 0) (n : Nat) (acc : Ops) :
    (denseAcc d x n acc).adds = acc.adds + n ∧ (denseAcc d x n acc).muls = acc.muls + n := by
  unfold denseAcc
  induction n with
  | zero => simp
  | succ n ih =>
    rw [List.range_succ, List.foldl_append, List.foldl_cons, List.foldl_nil, Ops.add_adds, Ops.add_muls, ih.1, ih.2, hd, hx]
    exact ⟨rfl, rfl⟩

theorem lastAt_zero {es : List (Ent Ops)} (h0 : ∀ e ∈ es, e.val = 0) (i j : Nat) : lastAt es i j = 0 := by
  unfold lastAt
  cases h : es.reverse.find? (fun e => e.row == i && e.col == j) with
  | none => rfl
  | some e => exact h0 e (List.mem_reverse.1 (List.mem_of_find?_eq_some h))

/-- **C89**, operations: a dense block takes as many of each as it has cells, whatever the number of entries. -/
theorem C89_dense {ε : Type} [NZ ε Ops] (M rows columns : Nat) (es : List ε) (h0 : ∀ e ∈ ents es, e.val = 0)
    (hM : rows * columns < M) (hin : InRange (ents es) rows columns) :
    ∃ (A : Dense Ops) (y' : Nat → Ops), mkDense M es rows columns = .ok A ∧
      A.spmv M (Buf.full columns fun _ => 0) 0 (Buf.full rows fun _ => 0) 0 = .ok (Buf.full rows y') ∧
      Took rows y' (rows * columns) (rows * columns) := by
  obtain ⟨A, h1, y', h2, h3⟩ := C05_dense_spmv M rows columns es hM hin (fun _ => 0) (fun _ => 0)
  have key : ∀ i ∈ Finset.range rows, (y' i).adds = columns ∧ (y' i).muls = columns := by
    intro i hi
    rw [h3 i (Finset.mem_range.1 hi)]
    have := denseAcc_ops (lastAt (ents es) i) (fun _ => 0) (lastAt_zero h0 i) (fun _ => rfl) columns 0
    simpa [Ops.zero_adds, Ops.zero_muls] using this
  refine ⟨A, y', h1, h2, ?_, ?_⟩
  · rw [Finset.sum_congr rfl fun i hi => (key i hi).1]; simp
  · rw [Finset.sum_congr rfl fun i hi => (key i hi).2]; simp

/-! ### Rates -/

section
variable {τ φ : Type} [LinearOrder τ] [AddCommMonoid τ] [Mul τ] [Div τ] [NatCast τ]

/-- **C89**, printing: with at least one time, `print_timing_verbose` prints the four times of C68 and for each the rate of that
time, and `print_timing_csv` the same four rates; with none both read outside the array. -/
theorem C89_printed (fl : Floats τ φ) (nnz : Nat) (times : List τ) (hM : times.length < 2 ^ 64) :
    (times ≠ [] → ∃ s : Stats τ, s.Of (fun t n => t / (n : τ)) times ∧
      (printTimingVerbose fl nnz times = .ok ([("best", s.best), ("median", s.median), ("mean", s.mean), ("worst", s.worst)].map
        fun l => ⟨l.1, fl.narrow l.2, mflops fl nnz (fl.narrow l.2)⟩)) ∧
      printTimingCsv fl nnz times = .ok ([s.best, s.median, s.mean, s.worst].map fun t => mflops fl nnz (fl.narrow t))) ∧
    (times = [] → printTimingVerbose fl nnz times = .error .oob ∧ printTimingCsv fl nnz times = .error .oob) := by
  obtain ⟨h1, h2⟩ := C68_stats (fun t n => t / (n : τ)) times hM
  refine ⟨fun h => ?_, fun h => ?_⟩
  · obtain ⟨s, hs, ho⟩ := h1 h
    exact ⟨s, ho, by unfold printTimingVerbose; rw [hs]; rfl, by unfold printTimingCsv; rw [hs]; rfl⟩
  · exact ⟨by unfold printTimingVerbose; rw [h2 h]; rfl, by unfold printTimingCsv; rw [h2 h]; rfl⟩

/-- What the order of the rates needs of `float` and `double` arithmetic: conversions and operations are monotone, and positive
times stay positive. -/
structure RoundsMonotonely [LinearOrder φ] (fl : Floats τ φ) : Prop where
  narrow : ∀ a b, a ≤ b → fl.narrow a ≤ fl.narrow b
  scale : ∀ (a b : φ), a ≤ b → fl.widen a * (1000000 : Nat) ≤ fl.widen b * (1000000 : Nat)
  div : ∀ (n : Nat) (a b : τ), 0 < a → a ≤ b → ((2 : Nat) * n : τ) / b ≤ (2 : Nat) * n / a
  pos : ∀ (t : τ), 0 < t → 0 < fl.widen (fl.narrow t) * (1000000 : Nat)

/-- **C89**, order: if all times are positive, the rate "best" is at least the rate "median", and that at least the rate "worst"; the
times are in the opposite order — for `float` and `double` arithmetic too. -/
theorem C89_order [LinearOrder φ] (fl : Floats τ φ) (hfl : RoundsMonotonely fl) (nnz : Nat) (times : List τ)
    (hM : times.length < 2 ^ 64) (hpos : ∀ t ∈ times, 0 < t) (lines : List (Line φ)) (h : printTimingVerbose fl nnz times = .ok lines) :
    ∃ best median mean worst : Line φ, lines = [best, median, mean, worst] ∧
      (best.mode, median.mode, mean.mode, worst.mode) = ("best", "median", "mean", "worst") ∧
      best.time ≤ median.time ∧ median.time ≤ worst.time ∧ worst.rate ≤ median.rate ∧ median.rate ≤ best.rate := by
  unfold printTimingVerbose at h
  obtain ⟨s, hs, h⟩ := bind_ok h
  have hne : times ≠ [] := by
    rintro rfl
    simp [timingStats, List.mergeSort, Buf.get, Buf.ofList] at hs
  obtain ⟨s', hs', ho⟩ := timingStats_ok (fun t n => t / (n : τ)) times hne hM
  rw [hs] at hs'
  cases hs'
  cases h
  have anti : ∀ a b : τ, 0 < a → a ≤ b → mflops fl nnz (fl.narrow b) ≤ mflops fl nnz (fl.narrow a) := fun a b ha hab =>
    hfl.narrow _ _ (hfl.div nnz _ _ (hfl.pos a ha) (hfl.scale _ _ (hfl.narrow _ _ hab)))
  have h1 := ho.best.2 _ ho.median.1
  have h2 := ho.worst.2 _ ho.median.1
  exact ⟨_, _, _, _, rfl, rfl, hfl.narrow _ _ h1, hfl.narrow _ _ h2, anti _ _ (hpos _ ho.median.1) h2, anti _ _ (hpos _ ho.best.1) h1⟩

end

theorem sum_between {τ : Type} [Field τ] [LinearOrder τ] [IsStrictOrderedRing τ] (lo hi : τ) (l : List τ) (h : ∀ t ∈ l, lo ≤ t ∧ t ≤ hi) :
    l.length * lo ≤ l.sum ∧ l.sum ≤ l.length * hi := by
  induction l with
  | nil => simp
  | cons a l ih =>
    obtain ⟨h1, h2⟩ := ih fun t ht => h t (List.mem_cons_of_mem _ ht)
    obtain ⟨h3, h4⟩ := h a List.mem_cons_self
    rw [List.sum_cons, List.length_cons]
    push_cast
    constructor <;> linarith

/-- **C89**, in exact arithmetic: each rate times its time is two operations per non-zero, in millions; and the rate "mean" lies between the
others too. -/
theorem C89_exact {τ : Type} [Field τ] [LinearOrder τ] [IsStrictOrderedRing τ] (nnz : Nat) (times : List τ) (hne : times ≠ [])
    (hM : times.length < 2 ^ 64) (hpos : ∀ t ∈ times, 0 < t) :
    ∃ best median mean worst : τ, printTimingCsv ⟨id, id⟩ nnz times = .ok [best, median, mean, worst] ∧
      worst ≤ median ∧ median ≤ best ∧ worst ≤ mean ∧ mean ≤ best ∧
      (∃ t ∈ times, best * (t * 1000000) = 2 * nnz ∧ ∀ t' ∈ times, t ≤ t') ∧
      (∃ t ∈ times, worst * (t * 1000000) = 2 * nnz ∧ ∀ t' ∈ times, t' ≤ t) ∧
      mean * (times.sum * 1000000) = 2 * nnz * times.length := by
  obtain ⟨s, ho, -, h⟩ := (C89_printed (⟨id, id⟩ : Floats τ τ) nnz times hM).1 hne
  refine ⟨_, _, _, _, h, ?_⟩
  have hn : (0 : τ) < times.length := by exact_mod_cast List.length_pos_iff.2 hne
  have hb := hpos _ ho.best.1
  have hw := hpos _ ho.worst.1
  have hm := hpos _ ho.median.1
  obtain ⟨s1, s2⟩ := sum_between s.best s.worst times fun t ht => ⟨ho.best.2 t ht, ho.worst.2 t ht⟩
  have hme : s.mean = times.sum / (times.length : τ) := ho.mean
  have m1 : s.best ≤ s.mean := by rw [hme, le_div_iff₀ hn]; linarith
  have m2 : s.mean ≤ s.worst := by rw [hme, div_le_iff₀ hn]; linarith
  have hmp : 0 < s.mean := lt_of_lt_of_le hb m1
  have anti : ∀ a b : τ, 0 < a → a ≤ b →
      mflops (⟨id, id⟩ : Floats τ τ) nnz b ≤ mflops (⟨id, id⟩ : Floats τ τ) nnz a := by
    intro a b ha hab
    simp only [mflops, id]
    have h2 : (0 : τ) ≤ ((2 : Nat) : τ) * nnz := mul_nonneg (Nat.cast_nonneg _) (Nat.cast_nonneg _)
    have h3 : (0 : τ) < ((1000000 : Nat) : τ) := by norm_num
    exact div_le_div_of_nonneg_left h2 (mul_pos ha h3) (mul_le_mul_of_nonneg_right hab h3.le)
  have eq : ∀ a : τ, 0 < a → mflops (⟨id, id⟩ : Floats τ τ) nnz a * (a * 1000000) = 2 * nnz := by
    intro a ha
    simp only [mflops, id]
    have : a * 1000000 ≠ 0 := (mul_pos ha (by norm_num)).ne'
    push_cast
    rw [div_mul_cancel₀ _ this]
  refine ⟨anti _ _ hm (ho.worst.2 _ ho.median.1), anti _ _ hb (ho.best.2 _ ho.median.1), anti _ _ hmp m2, anti _ _ hb m1,
    ⟨s.best, ho.best.1, eq _ hb, ho.best.2⟩, ⟨s.worst, ho.worst.1, eq _ hw, ho.worst.2⟩, ?_⟩
  have e := eq _ hmp
  have : times.sum = s.mean * times.length := by rw [hme, div_mul_cancel₀ _ hn.ne']
  rw [this]
  simp only [id]
  calc _ = mflops (⟨id, id⟩ : Floats τ τ) nnz s.mean * (s.mean * 1000000) * times.length := by ring
    _ = _ := by rw [e]

end Gsb
