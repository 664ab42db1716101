import Verif.Props.Result
import Verif.Props.Total
/-
C66 and C70 once more for the formats that change the order of the additions, without any law of arithmetic: what the benchmark
programs and the comparison program compute with floating point numbers.
-/
namespace Gsb
variable {T τ : Type}

/-! ### CGBR and CGBR2 as the programs use them -/

section
variable [Add T] [Mul T] [Zero T]

/-- CGBR with constant block sizes of at most 32768. -/
theorem matTotal_cgbr (S : Nat) (hS : 2 ^ 16 - 1 ≤ S) (choose : Nat → Nat → Nat → BlockChoice)
    (heavy : Nat → Nat → List Nat → Bool) (es : List (Element T)) (rows columns beta workers : Nat)
    (hdup : (∀ rs cs n, choose rs cs n ≠ .dense) ∨ Distinct (ents es))
    (hw0 : 0 < workers) (hle : beta ≤ 2 ^ 15) (hb : beta ≠ 0) (hne : es ≠ [])
    (hn : 2 * (es.length + 2) ≤ 2 ^ 32) (hgrid : max 1 (rows / beta) * max 1 (columns / beta) < 2 ^ 32) (hr : rows + 1 < 2 ^ 32)
    (hc : columns + 1 < 2 ^ 32) (hin : InRange (ents es) rows columns) :
    ∃ A es' g, (cooToCgbrConst (2 ^ 32) S workers choose heavy es rows columns beta beta : C (Cgbr T × List (Element T))) =
        .ok (A, es') ∧ MatRight A.toMat rows columns es.length g ∧
      ∀ x y, RowTotals (zeroPad columns x) (ents es) rows x y (g x y) := by
  obtain ⟨e0, he0⟩ := List.exists_mem_of_ne_nil es hne
  have h0 := hin _ (List.mem_map_of_mem (f := NZ.toEnt) he0)
  have hdense : ∀ rs cs n, rs ≤ 2 ^ 16 - 1 → cs ≤ 2 ^ 16 - 1 → n ≤ es.length → choose rs cs n = .dense → rs * cs < 2 ^ 32 :=
    fun rs cs n a1 a2 _ _ => Nat.lt_of_le_of_lt (Nat.mul_le_mul a1 a2) (by norm_num)
  obtain ⟨res, b, P, hP, -⟩ := cgbr_mainAct (2 ^ 32) S (2 ^ 16 - 1) workers rows columns choose heavy es _ _ _ _ (constOff_partition rows beta)
    (constOff_partition columns beta) hS (blocksAtMost_const (by omega) (by omega)) (blocksAtMost_const (by omega) (by omega))
    hdense hdup hw0 hne hn
    (by rw [constBlocks_max, constBlocks_max]; exact hgrid) hr (by omega)
    (constBlocks_le (by omega)) (constBlocks_le (by omega)) hin
  have h0 : (cooToCgbrConst (2 ^ 32) S workers choose heavy es rows columns beta beta : C (Cgbr T × List (Element T))) =
      cooToCgbr (2 ^ 32) S workers choose heavy es rows columns (constOff rows beta) (constBlocks rows beta) (constOff columns beta) (constBlocks columns beta) := by
    unfold cooToCgbrConst
    rw [constOffsets_spec (by omega) (by omega) hr, ok_bind, constOffsets_spec (by omega) (by omega) hc, ok_bind]
  have h1 := h0.trans hP
  obtain ⟨A', es'', e1, e2⟩ := C76_cgbr_const (2 ^ 32) S (2 ^ 16 - 1) workers rows columns beta beta choose heavy es (by omega)
      (by omega) hS (by omega) (by omega) hdense hdup hw0 hne hn hgrid hr hc hin
  rw [h1] at e1
  cases e1
  choose g g1 g2 g3 g4 using fun x y => (e2 columns (Nat.le_refl _) x y).1
  refine ⟨_, _, g, h1, ⟨rfl, rfl, ?_, fun x y => g3 x y rows (Nat.le_refl _)⟩, g1⟩
  show Except.ok _ = Except.ok _
  exact congrArg _ prepared_length

/-- CGBR2 with the library's factory and constant block sizes of at most 32768. -/
theorem matTotal_cgbr2 (choose : Nat → Nat → Nat → FactoryChoice) (balanced : Bool)
    (es : List (Element T)) (rows columns beta workers : Nat)
    (hdup : (∀ rs cs n, choose rs cs n ≠ .dense) ∨ Distinct (ents es)) (hw0 : 0 < workers) (hle : beta ≤ 2 ^ 15)
    (hb : beta ≠ 0) (hne : es ≠ [])
    (hn : 2 * (es.length + 2) ≤ 2 ^ 32) (hgrid : max 1 (rows / beta) * max 1 (columns / beta) < 2 ^ 32) (hr : rows + 1 < 2 ^ 32)
    (hc : columns + 1 < 2 ^ 32) (hin : InRange (ents es) rows columns) :
    ∃ A es' g, (cooToCgbr2Const (2 ^ 32) (2 ^ 16) workers choose es rows columns beta beta : C (Cgbr2 T × List (Element T))) =
        .ok (A, es') ∧ MatRight (A.toMat balanced) rows columns es.length g ∧
      ∀ x y, RowTotals (zeroPad columns x) (ents es) rows x y (g x y) := by
  obtain ⟨e0, he0⟩ := List.exists_mem_of_ne_nil es hne
  have h0 := hin _ (List.mem_map_of_mem (f := NZ.toEnt) he0)
  have hdense : ∀ rs cs n, rs ≤ 2 ^ 16 - 1 → cs ≤ 2 ^ 16 - 1 → n < 2 ^ 32 → choose rs cs n = .dense →
      rs * cs < 2 ^ 32 ∧ ∃ rs cs n, choose rs cs n = .dense :=
    fun rs cs n a1 a2 _ h => ⟨Nat.lt_of_le_of_lt (Nat.mul_le_mul a1 a2) (by norm_num), rs, cs, n, h⟩
  have hdup' : (∃ rs cs n, choose rs cs n = .dense) → Distinct (ents es) :=
    fun ⟨rs, cs, n, h⟩ => hdup.elim (fun h' => absurd h (h' rs cs n)) id
  have hg : constBlocks rows beta * constBlocks columns beta < 2 ^ 32 := by rw [constBlocks_max, constBlocks_max]; exact hgrid
  obtain ⟨res, P, hP, -, -⟩ := cgbr2_mainAct (2 ^ 32) (2 ^ 16 - 1) workers rows columns (factoryDefault (2 ^ 32) (2 ^ 16) choose)
    (∃ rs cs n, choose rs cs n = .dense) es _ _ _ _ (constOff_partition rows beta)
    (constOff_partition columns beta) (blocksAtMost_const (by omega) (by omega)) (blocksAtMost_const (by omega) (by omega))
    (factoryOk (2 ^ 32) (2 ^ 16) choose)
    (by
      intro rs cs L a b c d
      unfold factoryOk
      split
      · exact ⟨by omega, by omega⟩
      · omega
      · omega
      · next h =>
        have := hdense _ _ _ a b (by omega) h
        exact ⟨this.1, d this.2⟩)
    (goodMakeAct_factory (2 ^ 32) (2 ^ 16) choose) hdup' hw0 hne hn hg hr (by omega)
    (constBlocks_le (by omega)) (constBlocks_le (by omega)) hin
  have h0 : (cooToCgbr2Const (2 ^ 32) (2 ^ 16) workers choose es rows columns beta beta : C (Cgbr2 T × List (Element T))) =
      cgbr2Create (2 ^ 32) workers (factoryDefault (2 ^ 32) (2 ^ 16) choose) es rows columns (constOff rows beta) (constBlocks rows beta) (constOff columns beta) (constBlocks columns beta) := by
    unfold cooToCgbr2Const
    rw [constOffsets_spec (by omega) (by omega) hr, ok_bind, constOffsets_spec (by omega) (by omega) hc, ok_bind]
  have h1 := h0.trans hP
  obtain ⟨A', es'', e1, e2⟩ := C76_cgbr2 (2 ^ 32) (2 ^ 16) (2 ^ 16 - 1) workers rows columns choose _ es _ _ _ _ (constOff_partition rows beta)
    (constOff_partition columns beta) (by omega) (blocksAtMost_const (by omega) (by omega)) (blocksAtMost_const (by omega) (by omega))
    hdense hdup' hw0 hne hn hg hr (by omega) (constBlocks_le (by omega)) (constBlocks_le (by omega)) hin
  rw [hP] at e1
  cases e1
  choose g g1 g2 g3 g4 using fun x y => e2 balanced columns (Nat.le_refl _) x y
  refine ⟨_, _, g, h1, ⟨rfl, rfl, ?_, fun x y => g3 x y rows (Nat.le_refl _)⟩, g1⟩
  show Except.ok _ = Except.ok _
  exact congrArg _ prepared_length

end

/-! ### C66 -/

/-- What a benchmark must report, without any law of arithmetic: its name, the number of non-zeros, the statistics of the running
times, and the last of a row of vectors that begins with zero and in which each is, row by row, a sum of the one before and the
products of that row, each exactly once (besides zeroes and zeroes times components of `x`). -/
structure Bench.Sums [LinearOrder τ] [AddCommMonoid τ] [Add T] [Mul T] [Zero T] (m : Machine T τ) (method : String)
    (rows columns n : Nat) (es : List (Ent T)) (b : Bench T τ) : Prop where
  isMethod : b.method = method
  isNonzeros : b.nonzeros = n
  isStats : b.stats.Of m.over ((List.range m.iterations).map (m.lap method))
  isY : ∃ ys : Nat → Nat → T, (ys 0 = fun _ => 0) ∧
    (∀ k, k < m.iterations + 1 → RowTotals (zeroPad columns (m.rnd method)) es rows (m.rnd method) (ys k) (ys (k + 1))) ∧
    b.y = Buf.full rows (ys (m.iterations + 1))

section
variable [LinearOrder τ] [AddCommMonoid τ] [Add T] [Mul T] [Zero T]

theorem Bench.Right.sums {m : Machine T τ} {method : String} {rows columns n : Nat} {g : (Nat → T) → (Nat → T) → Nat → T}
    {b : Bench T τ} {es : List (Ent T)} (h : b.Right m method rows n g)
    (hg : ∀ x y, RowTotals (zeroPad columns x) es rows x y (g x y)) : b.Sums m method rows columns n es :=
  ⟨h.isMethod, h.isNonzeros, h.isStats, fun k => (g (m.rnd method))^[k] (fun _ => 0), rfl,
    fun k _ => by simp only [Function.iterate_succ_apply']; exact hg _ _, h.isY⟩

variable (m : Machine T τ) (cv : Codec T) (conv : Bytes → T)
  (fuel : Nat) (fs : FS) (name : String) (rows columns : Nat) (es : List (Ent T))
  (hi : 0 < m.iterations ∧ m.iterations < 2 ^ 64)
include hi

/-- **C66.** blocked, compiled for `Cgbr` or `Cgbr2`, in any arithmetic: `y` is summed up as in C76, once more for each call. -/
theorem C66_blocked_total (kind : BlockedKind) (beta : Nat) (args : List String)
    (hargs : args = [name] ∨ ∃ a b, args = [name, a, b])
    (hkind : (kind = .cgbr ∧ ((∀ rs cs n, m.choose rs cs n ≠ .dense) ∨ Distinct es)) ∨
      (kind = .cgbr2 ∧ ((∀ rs cs n, m.factory rs cs n ≠ .dense) ∨ Distinct es)))
    (hval : m.valSize ≤ 8) (hw : 0 < m.workers) (hw2 : 8 * m.workers < 2 ^ 31)
    (hpick : pickBlockSize 32 m.logbeta rows columns m.valSize m.workers = .ok beta) (hb : beta ≠ 0) (hne : es ≠ [])
    (hgrid : max 1 (rows / beta) * max 1 (columns / beta) < 2 ^ 32) (hr : rows + 1 < 2 ^ 32) (hc : columns + 1 < 2 ^ 32)
    (hn : 2 * (es.length + 2) ≤ 2 ^ 32) (hin : InRange es rows columns) (hv : cv.Exact (fun _ => True)) (hfuel : 0 < fuel)
    (hf : FileHolds cv conv fs name rows columns es) :
    ∃ b, blockedMain kind m cv conv fuel fs args = .ok (0, [b]) ∧ b.Sums m "GSB" rows columns es.length es := by
  have hread := driverRead_ok cv hv conv fuel hfuel fs name rows columns es (by omega) (by omega) (by omega) hin hf
  have hlen : (asElements es).length = es.length := List.length_map _
  have hne' : asElements es ≠ [] := by simpa [asElements] using hne
  have hle := pick_le (by omega) (by omega) hval hw2 hpick
  have key : ∃ A g, blockedConvert kind m (asElements es) rows columns beta = .ok A ∧
      MatRight A rows columns es.length g ∧ ∀ x y, RowTotals (zeroPad columns x) es rows x y (g x y) := by
    rcases hkind with ⟨rfl, hdup⟩ | ⟨rfl, hdup⟩
    · obtain ⟨A, es', g, h1, h2, h3⟩ := matTotal_cgbr (2 ^ 16) (by norm_num) m.choose m.heavy (asElements es) rows columns beta m.workers
        (by rw [ents_asElements]; exact hdup) hw hle hb hne' (by rw [hlen]; exact hn)
        hgrid hr hc (by rw [ents_asElements]; exact hin)
      rw [hlen] at h2
      rw [ents_asElements] at h3
      exact ⟨_, g, by unfold blockedConvert; simp only; rw [h1, ok_bind], h2, h3⟩
    · obtain ⟨A, es', g, h1, h2, h3⟩ := matTotal_cgbr2 m.factory m.balanced (asElements es) rows columns beta m.workers
        (by rw [ents_asElements]; exact hdup) hw hle hb hne' (by rw [hlen]; exact hn)
        hgrid hr hc (by rw [ents_asElements]; exact hin)
      rw [hlen] at h2
      rw [ents_asElements] at h3
      exact ⟨_, g, by unfold blockedConvert; simp only; rw [h1, ok_bind], h2, h3⟩
  obtain ⟨A, g, h1, h2, h3⟩ := key
  obtain ⟨b, e1, e2⟩ := benchmark_ok m A "GSB" h2 hi.1 hi.2
  refine ⟨b, ?_, e2.sums h3⟩
  have hl : args.length + 1 = 2 ∨ args.length + 1 = 4 := by rcases hargs with rfl | ⟨a, b, rfl⟩ <;> simp
  have hcons : ∃ rest, args = name :: rest := by rcases hargs with rfl | ⟨a, b, rfl⟩ <;> exact ⟨_, rfl⟩
  obtain ⟨rest, rfl⟩ := hcons
  unfold blockedMain
  rw [if_neg (by omega)]
  simp only
  rw [hread, ok_bind]
  simp only
  rw [hpick, ok_bind, h1, ok_bind, e1, ok_bind]

/-- Both benchmarks of bench.cpp and pbench.cpp, in any arithmetic. -/
theorem benchBoth_total (beta : Nat) (hdup : (∀ rs cs n, m.factory rs cs n ≠ .dense) ∨ Distinct es)
    (hval : m.valSize ≤ 8) (hw : 0 < m.workers) (hw2 : 8 * m.workers < 2 ^ 31)
    (hpick : pickBlockSize 32 m.logbeta rows columns m.valSize m.workers = .ok beta) (hb : beta ≠ 0) (hne : es ≠ [])
    (hgrid : max 1 (rows / beta) * max 1 (columns / beta) < 2 ^ 32) (hr : rows + 1 < 2 ^ 32) (hc : columns + 1 < 2 ^ 32)
    (hn : 2 * (es.length + 2) ≤ 2 ^ 32) (hin : InRange es rows columns) :
    ∃ b1 b2, benchBoth m (asElements es) rows columns beta = .ok (0, [b1, b2]) ∧
      b1.Right m "CSR" rows es.length (spmvExact es) ∧ b2.Sums m "GSB" rows columns es.length es := by
  have hlen : (asElements es).length = es.length := List.length_map _
  obtain ⟨A, es', h1, hp, h2⟩ := matRight_csr (asElements es) rows columns (by omega) hr (by omega) (by rw [ents_asElements]; exact hin)
  have hpe : (ents es').Perm es := by
    have := hp.map (NZ.toEnt (T := T))
    rw [← ents_asElements es]
    exact this
  have hne' : es' ≠ [] := by
    rintro rfl
    have := hp.length_eq
    rw [hlen] at this
    exact hne (List.eq_nil_of_length_eq_zero this.symm)
  obtain ⟨B, es'', g, g1, g2, g3⟩ := matTotal_cgbr2 m.factory m.balanced es' rows columns beta m.workers
    (hdup.imp_right (fun h => (hpe.pairwise_iff (fun {a b} hab hba => hab ⟨hba.1.symm, hba.2.symm⟩)).2 h)) hw
    (pick_le (by omega) (by omega) hval hw2 hpick) hb hne'
    (by rw [hp.length_eq, hlen]; exact hn) hgrid hr hc (fun e he => hin e (hpe.mem_iff.1 he))
  rw [hp.length_eq, hlen] at g2
  rw [hlen, ents_asElements] at h2
  obtain ⟨b1, e1, e2⟩ := benchmark_ok m A.toMat "CSR" h2 hi.1 hi.2
  obtain ⟨b2, f1, f2⟩ := benchmark_ok m (B.toMat m.balanced) "GSB" g2 hi.1 hi.2
  refine ⟨b1, b2, ?_, e2, f2.sums (fun x y => (g3 x y).perm hpe)⟩
  unfold benchBoth
  rw [h1, ok_bind]
  simp only
  rw [e1, ok_bind, g1, ok_bind]
  simp only
  rw [f1, ok_bind]

/-- **C66.** bench, in any arithmetic: the CSR benchmark is exact, the blocked one summed up as in C76. -/
theorem C66_bench_total (beta : Nat) (hdup : (∀ rs cs n, m.factory rs cs n ≠ .dense) ∨ Distinct es)
    (hval : m.valSize ≤ 8) (hw : 0 < m.workers) (hw2 : 8 * m.workers < 2 ^ 31)
    (hpick : pickBlockSize 32 m.logbeta rows columns m.valSize m.workers = .ok beta) (hb : beta ≠ 0) (hne : es ≠ [])
    (hgrid : max 1 (rows / beta) * max 1 (columns / beta) < 2 ^ 32) (hr : rows + 1 < 2 ^ 32) (hc : columns + 1 < 2 ^ 32)
    (hn : 2 * (es.length + 2) ≤ 2 ^ 32) (hin : InRange es rows columns) (hv : cv.Exact (fun _ => True)) (hfuel : 0 < fuel)
    (hf : FileHolds cv conv fs name rows columns es) :
    ∃ b1 b2, benchMain m cv conv fuel fs [name] = .ok (0, [b1, b2]) ∧
      b1.Right m "CSR" rows es.length (spmvExact es) ∧ b2.Sums m "GSB" rows columns es.length es := by
  have hread := driverRead_ok cv hv conv fuel hfuel fs name rows columns es (by omega) (by omega) (by omega) hin hf
  obtain ⟨b1, b2, h, r⟩ := benchBoth_total m rows columns es hi beta hdup hval hw hw2 hpick hb hne hgrid hr hc hn hin
  refine ⟨b1, b2, ?_, r⟩
  unfold benchMain
  simp only
  rw [hread, ok_bind]
  simp only
  rw [hpick, ok_bind, h]

/-- **C66.** pbench, in any arithmetic, for the renamed matrix; the permutation as in C66_pbench. -/
theorem C66_pbench_total (malloc0 : Bool) (pname : String) (p : List Nat) (beta : Nat)
    (hdup : (∀ rs cs n, m.factory rs cs n ≠ .dense) ∨ Distinct es)
    (hval : m.valSize ≤ 8) (hw : 0 < m.workers) (hw2 : 8 * m.workers < 2 ^ 31)
    (hpick : pickBlockSize 32 m.logbeta rows columns m.valSize m.workers = .ok beta) (hb : beta ≠ 0) (hne : es ≠ [])
    (hgrid : max 1 (rows / beta) * max 1 (columns / beta) < 2 ^ 32) (hr : rows + 1 < 2 ^ 32) (hc : columns + 1 < 2 ^ 32)
    (hn : 2 * (es.length + 2) ≤ 2 ^ 32) (hin : InRange es rows columns) (hv : cv.Exact (fun _ => True)) (hfuel : 0 < fuel)
    (hf : FileHolds cv conv fs name rows columns es) (hpf : fs pname = some (packed (idx 4) p)) (hpl : p.length < 2 ^ 32)
    (hpr : rows ≤ p.length) (hpc : columns ≤ p.length)
    (hperm : IsPerm p.length (fun k => p.getD k 0))
    (hkeep : ∀ k, k < p.length → (p.getD k 0 < rows → k < rows) ∧ (p.getD k 0 < columns → k < columns)) :
    ∃ b1 b2 σ, IsPerm p.length σ ∧ (∀ k, k < p.length → σ (p.getD k 0) = k) ∧
      pbenchMain malloc0 m cv conv fuel fs [name, pname] = .ok (0, [b1, b2]) ∧
      b1.Right m "CSR" rows es.length (spmvExact (relabel σ σ es)) ∧ b2.Sums m "GSB" rows columns es.length (relabel σ σ es) := by
  obtain ⟨σ, i4, i5, hin', hreach⟩ := pbench_reaches m cv conv fuel fs name rows columns es malloc0 pname p beta hpick hne (by omega) (by omega)
    (by omega) hin hv hfuel hf hpf hpl hpr hpc hperm hkeep
  have hlen : (relabel σ σ es).length = es.length := List.length_map _
  obtain ⟨b1, b2, h, r⟩ := benchBoth_total m rows columns (relabel σ σ es) hi beta
    (hdup.imp_right (fun h => by
      unfold Distinct relabel
      rw [List.pairwise_map]
      refine List.Pairwise.imp_of_mem ?_ h
      intro a b ha hb hab hc
      have ha := hin a ha
      have hb := hin b hb
      exact hab ⟨i4.inj _ _ (by omega) (by omega) hc.1, i4.inj _ _ (by omega) (by omega) hc.2⟩)) hval hw hw2 hpick hb
    (by simpa [relabel] using hne) hgrid hr hc (by rw [hlen]; exact hn) hin'
  rw [hlen] at r
  exact ⟨b1, b2, σ, i4, i5, by rw [hreach, h], r⟩

end

/-! ### C70 -/

section
variable (env : ResultEnv T) (m : Machine T τ) (cv : Codec T) (conv : Bytes → T)
  (fuel : Nat) (fs : FS) (name : String) (rest : List String) (rows columns beta : Nat) (es : List (Ent T))

/-- **C70**, in any arithmetic: the program runs to its end, with status 0; four comparisons are of the exact results of C01 and three
— CGBR with 32-bit and 16-bit local indices, CGBR(2) — of that with a vector summed up as in C76. -/
theorem C70_total [Add T] [Mul T] [Zero T] (hv : cv.Exact (fun _ => True)) (hfuel : 0 < fuel) (hval : m.valSize ≤ 8) (hw : 0 < m.workers)
    (hw2 : 8 * m.workers < 2 ^ 31)
    (hdup : ((∀ a b n, m.choose a b n ≠ .dense) ∧ (∀ a b n, m.factory a b n ≠ .dense) ∧ ∀ a b n, env.choose32 a b n ≠ .dense) ∨ Distinct es)
    (hpick : pickBlockSize 32 m.logbeta rows columns m.valSize m.workers = .ok beta) (hb : beta ≠ 0) (hne : es ≠ [])
    (hgrid : max 1 (rows / min beta (min rows columns)) * max 1 (columns / min beta (min rows columns)) < 2 ^ 32)
    (hr : rows + 32 < 2 ^ 32) (hc : columns + 1 < 2 ^ 32) (hn : 2 * (es.length + 2) ≤ 2 ^ 32) (hin : InRange es rows columns)
    (hf : FileHolds cv conv fs name rows columns es) :
    ∃ r1 r2 r3 r4 r5 r6 r7, resultMain env m cv conv fuel fs (name :: rest) = .ok (0, [r1, r2, r3, r4, r5, r6, r7]) ∧
      r1.Says env.fl (spmvExact es env.x env.y1) (spmvExact es env.x env.y2) rows ∧
      (∀ r ∈ [r2, r3, r4], r.Says env.fl (spmvExact es env.x env.y1) (spmvExact es env.x (fun _ => 0)) rows) ∧
      ∀ r ∈ [r5, r6, r7], ∃ y, RowTotals (zeroPad columns env.x) es rows env.x (fun _ => 0) y ∧
        r.Says env.fl (spmvExact es env.x env.y1) y rows := by
  obtain ⟨s, hs, h⟩ := resultMain_eq env m cv hv conv fuel hfuel fs name rest rows columns beta es hw hpick hb hne hgrid hr hc (by omega)
    hin hf
  have hle := pick_le (by omega) (by omega) hval hw2 hpick
  obtain ⟨e0, he0⟩ := List.exists_mem_of_ne_nil es hne
  have h00 := hin _ he0
  have hB0 : min beta (min rows columns) ≠ 0 := by omega
  have hBle : min beta (min rows columns) ≤ 2 ^ 15 := by omega
  generalize min beta (min rows columns) = B at *
  have hl : s.length = es.length := by have := hs.perm.length_eq; unfold ents at this; rw [List.length_map] at this; exact this
  have hsne : s ≠ [] := by rw [← List.length_pos_iff, hl]; exact List.length_pos_iff.2 hne
  have hd : Distinct es → Distinct (ents s) := distinct_perm hs.perm.symm
  obtain ⟨A6, s6, g6, a6, m6, t6⟩ := matTotal_cgbr (2 ^ 32) (by norm_num) env.choose32 env.heavy32 s rows columns B m.workers
    (hdup.imp (fun h => h.2.2) hd) hw hBle hB0 hsne (by omega) hgrid (by omega) hc (hs.inRange hin)
  obtain ⟨A7, s7, g7, a7, m7, t7⟩ := matTotal_cgbr (2 ^ 16) (by norm_num) m.choose m.heavy s rows columns B m.workers
    (hdup.imp (fun h => h.1) hd) hw hBle hB0 hsne (by omega) hgrid (by omega) hc (hs.inRange hin)
  obtain ⟨A8, s8, g8, a8, m8, t8⟩ := matTotal_cgbr2 m.factory m.balanced s rows columns B m.workers
    (hdup.imp (fun h => h.2.1) hd) hw hBle hB0 hsne (by omega) hgrid (by omega) hc (hs.inRange hin)
  unfold resultTail at h
  rw [a6, ok_bind, resultSection_report env _ rows columns _ _ m6 _ _ _ (by omega), ok_bind, a7, ok_bind,
    resultSection_report env _ rows columns _ _ m7 _ _ _ (by omega), ok_bind, a8, ok_bind,
    resultSection_report env _ rows columns _ _ m8 _ _ _ (by omega), ok_bind] at h
  simp only [List.cons_append, List.nil_append] at h
  refine ⟨_, _, _, _, _, _, _, h, reportOf_says _ _ _ _ (by omega), fun r hr' => ?_, fun r hr' => ?_⟩
  · simp only [List.mem_cons, List.not_mem_nil, or_false, or_self] at hr'
    rw [hr']
    exact reportOf_says _ _ _ _ (by omega)
  · simp only [List.mem_cons, List.not_mem_nil, or_false] at hr'
    rcases hr' with rfl | rfl | rfl
    · exact ⟨_, (t6 _ _).perm hs.perm, reportOf_says _ _ _ _ (by omega)⟩
    · exact ⟨_, (t7 _ _).perm hs.perm, reportOf_says _ _ _ _ (by omega)⟩
    · exact ⟨_, (t8 _ _).perm hs.perm, reportOf_says _ _ _ _ (by omega)⟩

/-- **C70** with rounding: if fresh memory is zero, every vector compared is, where both are finite, within twice the bound of C77 of the
vector it is compared with. -/
theorem C70_float {val : T → ℝ} {fin : T → Prop} {u η : ℝ} [Add T] [Mul T] [Zero T] (R : Rounded T val fin u η)
    (hv : cv.Exact (fun _ => True)) (hfuel : 0 < fuel) (hval : m.valSize ≤ 8) (hw : 0 < m.workers)
    (hw2 : 8 * m.workers < 2 ^ 31)
    (hdup : ((∀ a b n, m.choose a b n ≠ .dense) ∧ (∀ a b n, m.factory a b n ≠ .dense) ∧ ∀ a b n, env.choose32 a b n ≠ .dense) ∨ Distinct es)
    (hpick : pickBlockSize 32 m.logbeta rows columns m.valSize m.workers = .ok beta) (hb : beta ≠ 0) (hne : es ≠ [])
    (hgrid : max 1 (rows / min beta (min rows columns)) * max 1 (columns / min beta (min rows columns)) < 2 ^ 32)
    (hr : rows + 32 < 2 ^ 32) (hc : columns + 1 < 2 ^ 32) (hn : 2 * (es.length + 2) ≤ 2 ^ 32) (hin : InRange es rows columns)
    (hf : FileHolds cv conv fs name rows columns es) (hzero : ∀ i, env.y1 i = 0 ∧ env.y2 i = 0) :
    ∃ rs, resultMain env m cv conv fuel fs (name :: rest) = .ok (0, rs) ∧ rs.length = 7 ∧
      ∀ r ∈ rs, ∃ y y', r.Says env.fl y y' rows ∧
        RowErrors val fin u η es rows env.x (fun _ => 0) y ∧ RowErrors val fin u η es rows env.x (fun _ => 0) y' ∧
        ∀ i, i < rows → fin (y i) → fin (y' i) →
          |val (y i) - val (y' i)| ≤ 2 * errorBound u η (rowEntries es i).length (sizeRow val es env.x (fun _ => 0) i) := by
  obtain ⟨r1, r2, r3, r4, r5, r6, r7, h, h1, h2, h3⟩ := C70_total env m cv conv fuel fs name rest rows columns beta es hv hfuel hval hw hw2
    hdup hpick hb hne hgrid hr hc hn hin hf
  have e1 : env.y1 = fun _ => 0 := funext fun i => (hzero i).1
  have e2 : env.y2 = fun _ => 0 := funext fun i => (hzero i).2
  rw [e1] at h1 h2 h3
  rw [e2] at h1
  have hex : RowErrors val fin u η es rows env.x (fun _ => 0) (spmvExact es env.x (fun _ => 0)) :=
    C77_bound R es rows columns _ _ _ (rowTotals_exact es rows _ _)
  have key : ∀ (r : Report T) (y : Nat → T), RowErrors val fin u η es rows env.x (fun _ => 0) y →
      r.Says env.fl (spmvExact es env.x (fun _ => 0)) y rows → ∃ y y', r.Says env.fl y y' rows ∧
        RowErrors val fin u η es rows env.x (fun _ => 0) y ∧ RowErrors val fin u η es rows env.x (fun _ => 0) y' ∧
        ∀ i, i < rows → fin (y i) → fin (y' i) →
          |val (y i) - val (y' i)| ≤ 2 * errorBound u η (rowEntries es i).length (sizeRow val es env.x (fun _ => 0) i) :=
    fun r y hy hs => ⟨_, y, hs, hex, hy, fun i hi f1 f2 => C77_agree es rows _ _ _ _ hex hy i hi f1 f2⟩
  refine ⟨_, h, rfl, fun r hr' => ?_⟩
  simp only [List.mem_cons, List.not_mem_nil, or_false] at hr' h2 h3
  rcases hr' with rfl | rfl | rfl | rfl | rfl | rfl | rfl
  · exact key _ _ hex h1
  · exact key _ _ hex (h2 _ (by simp))
  · exact key _ _ hex (h2 _ (by simp))
  · exact key _ _ hex (h2 _ (by simp))
  · obtain ⟨y, t, hs⟩ := h3 _ (.inl rfl)
    exact key _ _ (C77_bound R es rows columns _ _ _ t) hs
  · obtain ⟨y, t, hs⟩ := h3 _ (.inr (.inl rfl))
    exact key _ _ (C77_bound R es rows columns _ _ _ t) hs
  · obtain ⟨y, t, hs⟩ := h3 _ (.inr (.inr rfl))
    exact key _ _ (C77_bound R es rows columns _ _ _ t) hs

end

end Gsb
