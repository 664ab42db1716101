import Verif.Proof.Drivers
import Verif.Props.Permute
import Verif.Props.IoOpen
import Verif.Props.Tools3
import Mathlib.Data.UInt
/-
C66–C68: the benchmark programs.  `Machine` (Model/Drivers.lean) holds what a run depends on besides arguments and files:
number of workers and iterations, running times, random vectors, outcomes of floating point decisions.
-/
namespace Gsb
variable {T τ : Type} [LinearOrder τ] [AddCommMonoid τ]

/-! ### C68: the timing statistics -/

/-- **C68.** For every non-empty series of running times the numbers printed are the least time, the greatest, the upper
median and the sum divided by the number; with no running times at all the code reads outside the array. -/
theorem C68_stats (over : τ → Nat → τ) (times : List τ) (hM : times.length < 2 ^ 64) :
    (times ≠ [] → ∃ s, timingStats over times = .ok s ∧ s.Of over times) ∧
    (times = [] → timingStats over times = .error .oob) :=
  ⟨fun h => timingStats_ok over times h hM, fun h => by subst h; simp [timingStats, List.mergeSort, Buf.get, Buf.ofList]⟩

/-- C68: an even number of times, where the upper of the two middle ones is the median. -/
example : ∃ s, timingStats (fun t n => t / n) [40, 10, 30, 20] = .ok s ∧ s.best = 10 ∧ s.median = 30 ∧ s.mean = 25 ∧ s.worst = 40 := by
  refine ⟨⟨10, 30, 25, 40⟩, ?_, rfl, rfl, rfl, rfl⟩
  simp [timingStats, List.mergeSort, Buf.get, Buf.ofList, subM, List.MergeSort.Internal.splitInTwo]

/-! ### C66: what the programs compute -/

section
variable [Add T] [Mul T] [Zero T] (m : Machine T τ) (cv : Codec T) (hv : cv.Exact (fun _ => True)) (conv : Bytes → T)
  (fuel : Nat) (hfuel : 0 < fuel) (fs : FS) (name : String) (rows columns : Nat) (es : List (Ent T))
  (hi : 0 < m.iterations ∧ m.iterations < 2 ^ 64)
include hv hfuel hi

/-- **C66.** csr, compiled for `Csr` or `Csr2`: on a readable file the status is 0 and the one benchmark reported is that of the
matrix in the file, bit for bit. -/
theorem C66_csr (kind : CsrKind) (rest : List String) (hr : rows + 1 < 2 ^ 32) (hc : columns < 2 ^ 32) (hn : es.length < 2 ^ 32)
    (hin : InRange es rows columns) (hf : FileHolds cv conv fs name rows columns es) :
    ∃ b, csrMain kind m cv conv fuel fs (name :: rest) = .ok (0, [b]) ∧ b.Right m "CSR" rows es.length (spmvExact es) := by
  have hread := driverRead_ok cv hv conv fuel hfuel fs name rows columns es (by omega) hc hn hin hf
  have id1 : ents es = es := List.map_id es
  have key : ∃ A, csrConvert kind es rows columns = .ok A ∧ MatRight A rows columns es.length (spmvExact es) := by
    cases kind with
    | csr =>
      obtain ⟨A, es', h1, -, h2⟩ := matRight_csr es rows columns hn hr hc (by rw [id1]; exact hin)
      rw [id1] at h2
      exact ⟨_, by unfold csrConvert; simp only; rw [h1, ok_bind], h2⟩
    | csr2 =>
      obtain ⟨A, es', h1, h2⟩ := matRight_csr2 es rows columns hn hr (by rw [id1]; exact hin)
      rw [id1] at h2
      exact ⟨_, by unfold csrConvert; simp only; rw [h1, ok_bind], h2⟩
  obtain ⟨A, h1, h2⟩ := key
  obtain ⟨b, e1, e2⟩ := benchmark_ok m A "CSR" h2 hi.1 hi.2
  refine ⟨b, ?_, e2⟩
  unfold csrMain
  simp only
  rw [hread, ok_bind]
  simp only
  rw [h1, ok_bind, e1, ok_bind]

/-- **C66.** cswr: the same with the default width 32, or with any width from 1 to 256 given. -/
theorem C66_cswr (atoi : String → Int) (width : Nat) (args : List String)
    (hargs : (args = [name] ∧ width = 32) ∨ ∃ w, args = [name, w] ∧ atoi w = (width : Int))
    (hw : 0 < width) (hw2 : width ≤ 256) (hr : rows + width < 2 ^ 32) (hc : columns < 2 ^ 32) (hn : es.length < 2 ^ 32)
    (hin : InRange es rows columns) (hf : FileHolds cv conv fs name rows columns es) :
    ∃ b, cswrMain atoi m cv conv fuel fs args = .ok (0, [b]) ∧ b.Right m "CSWR" rows es.length (spmvExact es) := by
  have hread := driverRead_ok cv hv conv fuel hfuel fs name rows columns es (by omega) hc hn hin hf
  have id1 : ents es = es := List.map_id es
  obtain ⟨A, es', h1, h2⟩ := matRight_cswr es rows columns width hw hw2 hn hr (by rw [id1]; exact hin)
  rw [id1] at h2
  obtain ⟨b, e1, e2⟩ := benchmark_ok m A.toMat "CSWR" h2 hi.1 hi.2
  refine ⟨b, ?_, e2⟩
  rcases hargs with ⟨rfl, rfl⟩ | ⟨w, rfl, hwa⟩
  · unfold cswrMain
    simp only
    rw [hread, ok_bind]
    simp only
    rw [h1, ok_bind, e1, ok_bind]
  · unfold cswrMain
    simp only
    have : toIdx (2 ^ 32) (atoi w) = width := by
      unfold toIdx
      rw [hwa]
      omega
    rw [this, hread, ok_bind]
    simp only
    rw [h1, ok_bind, e1, ok_bind]

/-- **C66.** blocked, compiled for `Csbr` or `Csbr2`: the same, bit for bit, with the block size the program picks.  Two further
arguments, announced as block sizes, change nothing. -/
theorem C66_blocked_exact (kind : BlockedKind) (hkind : kind = .csbr ∨ kind = .csbr2) (beta : Nat) (args : List String)
    (hargs : args = [name] ∨ ∃ a b, args = [name, a, b]) (hw : 0 < m.workers)
    (hpick : pickBlockSize 32 m.logbeta rows columns m.valSize m.workers = .ok beta) (hb : beta ≠ 0) (hne : es ≠ [])
    (hgrid : max 1 (rows / beta) * max 1 (columns / beta) < 2 ^ 32) (hr : rows + 1 < 2 ^ 32) (hc : columns + 1 < 2 ^ 32)
    (hn : es.length < 2 ^ 32) (hin : InRange es rows columns) (hf : FileHolds cv conv fs name rows columns es) :
    ∃ b, blockedMain kind m cv conv fuel fs args = .ok (0, [b]) ∧ b.Right m "GSB" rows es.length (spmvExact es) := by
  have hread := driverRead_ok cv hv conv fuel hfuel fs name rows columns es (by omega) (by omega) hn hin hf
  have hlen : (asElements es).length = es.length := List.length_map _
  have hne' : asElements es ≠ [] := by simpa [asElements] using hne
  have key : ∃ A, blockedConvert kind m (asElements es) rows columns beta = .ok A ∧
      MatRight A rows columns es.length (spmvExact es) := by
    rcases hkind with rfl | rfl
    · obtain ⟨A, es', h1, -, h2⟩ := matRight_csbr (asElements es) rows columns beta m.workers (by omega) hw hne' (by rw [hlen]; exact hn)
        hgrid hr hc (by rw [ents_asElements]; exact hin)
      rw [ents_asElements, hlen] at h2
      exact ⟨_, by unfold blockedConvert; simp only; rw [h1, ok_bind], h2⟩
    · obtain ⟨A, es', h1, -, h2⟩ := matRight_csbr2 (asElements es) rows columns beta (by omega) hne' (by rw [hlen]; exact hn)
        hgrid hr hc (by rw [ents_asElements]; exact hin)
      rw [ents_asElements, hlen] at h2
      exact ⟨_, by unfold blockedConvert; simp only; rw [h1, ok_bind], h2⟩
  obtain ⟨A, h1, h2⟩ := key
  obtain ⟨b, e1, e2⟩ := benchmark_ok m A "GSB" h2 hi.1 hi.2
  refine ⟨b, ?_, e2⟩
  have hl : args.length + 1 = 2 ∨ args.length + 1 = 4 := by rcases hargs with rfl | ⟨a, b, rfl⟩ <;> simp
  have hcons : ∃ rest, args = name :: rest := by rcases hargs with rfl | ⟨a, b, rfl⟩ <;> exact ⟨_, rfl⟩
  obtain ⟨rest, rfl⟩ := hcons
  unfold blockedMain
  rw [if_neg (by omega)]
  simp only
  rw [hread, ok_bind]
  simp only
  rw [hpick, ok_bind, h1, ok_bind, e1, ok_bind]

end

section
variable [Add T] [Mul T] [Zero T] (m : Machine T τ) (cv : Codec T) (conv : Bytes → T)
  (fuel : Nat) (fs : FS) (name : String) (rows columns : Nat) (es : List (Ent T))

/-- What pbench runs its two benchmarks on: the entries, renamed. -/
theorem pbench_reaches (malloc0 : Bool) (pname : String) (p : List Nat) (beta : Nat)
    (hpick : pickBlockSize 32 m.logbeta rows columns m.valSize m.workers = .ok beta) (hne : es ≠ [])
    (hr : rows < 2 ^ 32) (hc : columns < 2 ^ 32) (hn : es.length < 2 ^ 32) (hin : InRange es rows columns) (hv : cv.Exact (fun _ => True)) (hfuel : 0 < fuel)
    (hf : FileHolds cv conv fs name rows columns es) (hpf : fs pname = some (packed (idx 4) p)) (hpl : p.length < 2 ^ 32)
    (hpr : rows ≤ p.length) (hpc : columns ≤ p.length)
    (hperm : IsPerm p.length (fun k => p.getD k 0))
    (hkeep : ∀ k, k < p.length → (p.getD k 0 < rows → k < rows) ∧ (p.getD k 0 < columns → k < columns)) :
    ∃ σ, IsPerm p.length σ ∧ (∀ k, k < p.length → σ (p.getD k 0) = k) ∧ InRange (relabel σ σ es) rows columns ∧
      pbenchMain malloc0 m cv conv fuel fs [name, pname] = benchBoth m (asElements (relabel σ σ es)) rows columns beta := by
  have hread := driverRead_ok cv hv conv fuel hfuel fs name rows columns es hr hc hn hin hf
  have hget : ∀ k, k < p.length → (Buf.ofList p).get k = .ok (p.getD k 0) := fun k hk => by
    refine Buf.get_ok (by show k < p.length; omega) ?_
    show p[k]? = some _
    rw [List.getElem?_eq_getElem (by omega), List.getD_eq_getElem?_getD, List.getElem?_eq_getElem (by omega)]
    rfl
  obtain ⟨q, σ, -, i1, -, i3, i4, i5, -⟩ := C32_invert (Buf.ofList p) p.length _ hget hperm
  have hpos : 0 < p.length := by
    obtain ⟨e0, he0⟩ := List.exists_mem_of_ne_nil es hne
    have := hin e0 he0
    omega
  have hit : items (idx 4) (packed (idx 4) p) = p := by
    have := items_packed idx4_exact p (fun a ha => by
      obtain ⟨k, hk, rfl⟩ := List.getElem_of_mem ha
      have := hperm.lt k (by omega)
      rw [List.getD_eq_getElem?_getD, List.getElem?_eq_getElem hk] at this
      simp only [Option.getD_some] at this
      omega) [] (by decide)
    rwa [List.append_nil] at this
  have hσr : ∀ k, k < rows → σ k < rows := fun k hk => by
    have h1 := (i5 k (by omega)).2
    exact (hkeep (σ k) (i4.lt k (by omega))).1 (by omega)
  have hσc : ∀ k, k < columns → σ k < columns := fun k hk => by
    have h1 := (i5 k (by omega)).2
    exact (hkeep (σ k) (i4.lt k (by omega))).2 (by omega)
  have hpe : permuteElements q (asElements es) = .ok (asElements (relabel σ σ es)) := by
    unfold permuteElements
    rw [mapM_ok _ _ (fun e : Element T => ⟨σ e.row, σ e.col, e.val, e.block⟩) (fun e he => ?_)]
    · unfold asElements relabel
      rw [List.map_map, List.map_map]
      rfl
    · obtain ⟨e', h', rfl⟩ := List.mem_map.1 he
      have := hin e' h'
      unfold permuteElement
      simp only
      rw [i3 _ (by omega), ok_bind, i3 _ (by omega), ok_bind]
  refine ⟨σ, i4, fun k hk => (i5 k hk).1, fun e he => ?_, ?_⟩
  · obtain ⟨e', h', rfl⟩ := List.mem_map.1 he
    exact ⟨hσr _ (hin e' h').1, hσc _ (hin e' h').2⟩
  · unfold pbenchMain
    simp only
    rw [hread, ok_bind]
    simp only
    rw [hpick, ok_bind, readBinArray_items (by decide) malloc0 fs pname _ hpf (.inl (by
      rw [hit]; intro h0; rw [h0] at hpos; simp at hpos)), ok_bind, hit]
    simp only
    rw [if_neg (by decide), Nat.mod_eq_of_lt (by omega), i1, ok_bind, hpe, ok_bind]

end

section
variable [CommSemiring T] (m : Machine T τ) (cv : Codec T) (hv : cv.Exact (fun _ => True)) (conv : Bytes → T)
  (fuel : Nat) (hfuel : 0 < fuel) (fs : FS) (name : String) (rows columns : Nat) (es : List (Ent T))
  (hi : 0 < m.iterations ∧ m.iterations < 2 ^ 64)
include hi

/-- **C66.** blocked, compiled for `Cgbr` or `Cgbr2`: the same up to the order of summation, if no block of dense type meets a
repeated entry. -/
theorem C66_blocked_sum (kind : BlockedKind) (beta : Nat) (args : List String)
    (hargs : args = [name] ∨ ∃ a b, args = [name, a, b])
    (hkind : (kind = .cgbr ∧ ((∀ rs cs n, m.choose rs cs n ≠ .dense) ∨ Distinct es)) ∨
      (kind = .cgbr2 ∧ ((∀ rs cs n, m.factory rs cs n ≠ .dense) ∨ Distinct es)))
    (hval : m.valSize ≤ 8) (hw : 0 < m.workers) (hw2 : 8 * m.workers < 2 ^ 31)
    (hpick : pickBlockSize 32 m.logbeta rows columns m.valSize m.workers = .ok beta) (hb : beta ≠ 0) (hne : es ≠ [])
    (hgrid : max 1 (rows / beta) * max 1 (columns / beta) < 2 ^ 32) (hr : rows + 1 < 2 ^ 32) (hc : columns + 1 < 2 ^ 32)
    (hn : 2 * (es.length + 2) ≤ 2 ^ 32) (hin : InRange es rows columns) (hv : cv.Exact (fun _ => True)) (hfuel : 0 < fuel)
    (hf : FileHolds cv conv fs name rows columns es) :
    ∃ b, blockedMain kind m cv conv fuel fs args = .ok (0, [b]) ∧ b.Right m "GSB" rows es.length (spmvSum es) := by
  have hread := driverRead_ok cv hv conv fuel hfuel fs name rows columns es (by omega) (by omega) (by omega) hin hf
  have hlen : (asElements es).length = es.length := List.length_map _
  have hne' : asElements es ≠ [] := by simpa [asElements] using hne
  have key : ∃ A, blockedConvert kind m (asElements es) rows columns beta = .ok A ∧
      MatRight A rows columns es.length (spmvSum es) := by
    rcases hkind with ⟨rfl, hdup⟩ | ⟨rfl, hdup⟩
    · obtain ⟨A, es', h1, h2⟩ := matRight_cgbr m.logbeta m.valSize m.choose m.heavy (asElements es) rows columns beta m.workers
        (by rw [ents_asElements]; exact hdup) hval hw hw2 hpick hb hne' (by rw [hlen]; exact hn)
        hgrid hr hc (by rw [ents_asElements]; exact hin)
      rw [ents_asElements, hlen] at h2
      exact ⟨_, by unfold blockedConvert; simp only; rw [h1, ok_bind], h2⟩
    · obtain ⟨A, es', h1, h2⟩ := matRight_cgbr2 m.logbeta m.valSize m.factory m.balanced (asElements es) rows columns beta m.workers
        (by rw [ents_asElements]; exact hdup) hval hw hw2 hpick hb hne' (by rw [hlen]; exact hn)
        hgrid hr hc (by rw [ents_asElements]; exact hin)
      rw [ents_asElements, hlen] at h2
      exact ⟨_, by unfold blockedConvert; simp only; rw [h1, ok_bind], h2⟩
  obtain ⟨A, h1, h2⟩ := key
  obtain ⟨b, e1, e2⟩ := benchmark_ok m A "GSB" h2 hi.1 hi.2
  refine ⟨b, ?_, e2⟩
  have hl : args.length + 1 = 2 ∨ args.length + 1 = 4 := by rcases hargs with rfl | ⟨a, b, rfl⟩ <;> simp
  have hcons : ∃ rest, args = name :: rest := by rcases hargs with rfl | ⟨a, b, rfl⟩ <;> exact ⟨_, rfl⟩
  obtain ⟨rest, rfl⟩ := hcons
  unfold blockedMain
  rw [if_neg (by omega)]
  simp only
  rw [hread, ok_bind]
  simp only
  rw [hpick, ok_bind, h1, ok_bind, e1, ok_bind]

/-- Both benchmarks of bench.cpp and pbench.cpp. -/
theorem benchBoth_ok (beta : Nat) (hdup : (∀ rs cs n, m.factory rs cs n ≠ .dense) ∨ Distinct es)
    (hval : m.valSize ≤ 8) (hw : 0 < m.workers) (hw2 : 8 * m.workers < 2 ^ 31)
    (hpick : pickBlockSize 32 m.logbeta rows columns m.valSize m.workers = .ok beta) (hb : beta ≠ 0) (hne : es ≠ [])
    (hgrid : max 1 (rows / beta) * max 1 (columns / beta) < 2 ^ 32) (hr : rows + 1 < 2 ^ 32) (hc : columns + 1 < 2 ^ 32)
    (hn : 2 * (es.length + 2) ≤ 2 ^ 32) (hin : InRange es rows columns) :
    ∃ b1 b2, benchBoth m (asElements es) rows columns beta = .ok (0, [b1, b2]) ∧
      b1.Right m "CSR" rows es.length (spmvExact es) ∧ b2.Right m "GSB" rows es.length (spmvSum es) := by
  have hlen : (asElements es).length = es.length := List.length_map _
  obtain ⟨A, es', h1, hp, h2⟩ := matRight_csr (asElements es) rows columns (by omega) hr (by omega) (by rw [ents_asElements]; exact hin)
  have hpe : (ents es').Perm es := by
    have := hp.map (NZ.toEnt (T := T))
    rw [← ents_asElements es]
    exact this
  have hne' : es' ≠ [] := by
    rintro rfl
    have := hp.length_eq
    rw [hlen] at this
    exact hne (List.eq_nil_of_length_eq_zero this.symm)
  obtain ⟨B, es'', g1, g2⟩ := matRight_cgbr2 m.logbeta m.valSize m.factory m.balanced es' rows columns beta m.workers
    (hdup.imp_right (fun h => (hpe.pairwise_iff (fun {a b} hab hba => hab ⟨hba.1.symm, hba.2.symm⟩)).2 h)) hval hw hw2 hpick hb hne'
    (by rw [hp.length_eq, hlen]; exact hn) hgrid hr hc (fun e he => hin e (hpe.mem_iff.1 he))
  rw [hp.length_eq, hlen] at g2
  rw [hlen, ents_asElements] at h2
  have hsum : spmvSum (ents es') = spmvSum es := funext fun x => funext fun y => spmvSum_perm hpe x y
  rw [hsum] at g2
  obtain ⟨b1, e1, e2⟩ := benchmark_ok m A.toMat "CSR" h2 hi.1 hi.2
  obtain ⟨b2, f1, f2⟩ := benchmark_ok m (B.toMat m.balanced) "GSB" g2 hi.1 hi.2
  refine ⟨b1, b2, ?_, e2, f2⟩
  unfold benchBoth
  rw [h1, ok_bind]
  simp only
  rw [e1, ok_bind, g1, ok_bind]
  simp only
  rw [f1, ok_bind]

/-- **C66.** bench: the CSR benchmark is exact, and the blocked one — built from the entries in the order the CSR conversion
left them in — agrees up to the order of summation. -/
theorem C66_bench (beta : Nat) (hdup : (∀ rs cs n, m.factory rs cs n ≠ .dense) ∨ Distinct es)
    (hval : m.valSize ≤ 8) (hw : 0 < m.workers) (hw2 : 8 * m.workers < 2 ^ 31)
    (hpick : pickBlockSize 32 m.logbeta rows columns m.valSize m.workers = .ok beta) (hb : beta ≠ 0) (hne : es ≠ [])
    (hgrid : max 1 (rows / beta) * max 1 (columns / beta) < 2 ^ 32) (hr : rows + 1 < 2 ^ 32) (hc : columns + 1 < 2 ^ 32)
    (hn : 2 * (es.length + 2) ≤ 2 ^ 32) (hin : InRange es rows columns) (hv : cv.Exact (fun _ => True)) (hfuel : 0 < fuel)
    (hf : FileHolds cv conv fs name rows columns es) :
    ∃ b1 b2, benchMain m cv conv fuel fs [name] = .ok (0, [b1, b2]) ∧
      b1.Right m "CSR" rows es.length (spmvExact es) ∧ b2.Right m "GSB" rows es.length (spmvSum es) := by
  have hread := driverRead_ok cv hv conv fuel hfuel fs name rows columns es (by omega) (by omega) (by omega) hin hf
  obtain ⟨b1, b2, h, r⟩ := benchBoth_ok m rows columns es hi beta hdup hval hw hw2 hpick hb hne hgrid hr hc hn hin
  refine ⟨b1, b2, ?_, r⟩
  unfold benchMain
  simp only
  rw [hread, ok_bind]
  simp only
  rw [hpick, ok_bind, h]

/-- **C66.** pbench: as bench, for the matrix with its rows and columns renamed by the inverse of the permutation in the second
file.  The permutation covers rows and columns and keeps the row indices among themselves and the column indices among
themselves; for a square matrix and a permutation of its rows that is always so. -/
theorem C66_pbench (malloc0 : Bool) (pname : String) (p : List Nat) (beta : Nat)
    (hdup : (∀ rs cs n, m.factory rs cs n ≠ .dense) ∨ Distinct es)
    (hval : m.valSize ≤ 8) (hw : 0 < m.workers) (hw2 : 8 * m.workers < 2 ^ 31)
    (hpick : pickBlockSize 32 m.logbeta rows columns m.valSize m.workers = .ok beta) (hb : beta ≠ 0) (hne : es ≠ [])
    (hgrid : max 1 (rows / beta) * max 1 (columns / beta) < 2 ^ 32) (hr : rows + 1 < 2 ^ 32) (hc : columns + 1 < 2 ^ 32)
    (hn : 2 * (es.length + 2) ≤ 2 ^ 32) (hin : InRange es rows columns) (hv : cv.Exact (fun _ => True)) (hfuel : 0 < fuel)
    (hf : FileHolds cv conv fs name rows columns es) (hpf : fs pname = some (packed (idx 4) p)) (hpl : p.length < 2 ^ 32)
    (hpr : rows ≤ p.length) (hpc : columns ≤ p.length)
    (hperm : IsPerm p.length (fun k => p.getD k 0))
    (hkeep : ∀ k, k < p.length → (p.getD k 0 < rows → k < rows) ∧ (p.getD k 0 < columns → k < columns)) :
    ∃ b1 b2 σ, IsPerm p.length σ ∧ (∀ k, k < p.length → σ (p.getD k 0) = k) ∧
      pbenchMain malloc0 m cv conv fuel fs [name, pname] = .ok (0, [b1, b2]) ∧
      b1.Right m "CSR" rows es.length (spmvExact (relabel σ σ es)) ∧ b2.Right m "GSB" rows es.length (spmvSum (relabel σ σ es)) := by
  obtain ⟨σ, i4, i5, hin', hreach⟩ := pbench_reaches m cv conv fuel fs name rows columns es malloc0 pname p beta hpick hne (by omega) (by omega)
    (by omega) hin hv hfuel hf hpf hpl hpr hpc hperm hkeep
  have hlen : (relabel σ σ es).length = es.length := List.length_map _
  obtain ⟨b1, b2, h, r⟩ := benchBoth_ok m rows columns (relabel σ σ es) hi beta
    (hdup.imp_right (fun h => by
      unfold Distinct relabel
      rw [List.pairwise_map]
      refine List.Pairwise.imp_of_mem ?_ h
      intro a b ha hb hab hc
      have ha := hin a ha
      have hb := hin b hb
      exact hab ⟨i4.inj _ _ (by omega) (by omega) hc.1, i4.inj _ _ (by omega) (by omega) hc.2⟩)) hval hw hw2 hpick hb
    (by simpa [relabel] using hne) hgrid hr hc (by rw [hlen]; exact hn) hin'
  rw [hlen] at r
  refine ⟨b1, b2, σ, i4, i5, ?_, r⟩
  rw [hreach, h]

end

/-! ### C67: when they do not -/

section
variable [Add T] [Mul T] [Zero T] (m : Machine T τ) (cv : Codec T) (conv : Bytes → T) (fuel : Nat) (fs : FS) (malloc0 : Bool)
  (atoi : String → Int)

/-- The file cannot be used: it is missing, its name ends in neither `.bin` nor `.mtx`, or it is a proper prefix of a binary
matrix file. -/
def Unusable (cv : Codec T) (files : String → Option Bytes) (name : String) : Prop :=
  files name = none ∨
  ((¬ ∃ p, name.toList = p ++ ".bin".toList) ∧ ¬ ∃ p, name.toList = p ++ ".mtx".toList) ∨
  ((∃ p, name.toList = p ++ ".bin".toList) ∧ ∃ (rows columns : Nat) (es : List (Ent T)) (k : Nat), rows < 2 ^ 32 ∧ columns < 2 ^ 32 ∧
    3 * es.length < 2 ^ 32 ∧ k < (binFile 4 cv rows columns es).length ∧ files name = some ((binFile 4 cv rows columns es).take k))

omit [Add T] [Mul T] [Zero T] in
theorem driverRead_unusable (hv : cv.Exact (fun _ => True)) (name : String) (h : Unusable cv fs name) :
    driverRead cv conv fuel fs name = .ok none := by
  by_cases hb : ∃ p, name.toList = p ++ ".bin".toList
  · have hco := C46_bin 4 cv conv fuel fs name hb
    rcases h with h | h | ⟨-, rows, columns, es, k, h1, h2, h3, h4, h5⟩
    · exact driverRead_fails (by rw [hco]; exact (by unfold readBinCoo; rw [h])) (by decide)
    · exact absurd hb h.1
    · have e : (256 : Nat) ^ 4 = 2 ^ 32 := by norm_num
      obtain ⟨code, A, a1, a2⟩ := C36_truncated_rejected (by decide) hv fs name rows columns es (by rw [e]; exact h1) (by rw [e]; exact h2)
        (by rw [e]; exact h3) k h4 h5
      exact driverRead_fails (by rw [hco]; exact a1) (by omega)
  · by_cases hm : ∃ p, name.toList = p ++ ".mtx".toList
    · have hco := C46_mtx 4 cv conv fuel fs name hm
      rcases h with h | h | h
      · exact driverRead_fails (by rw [hco]; exact (by unfold readMmCoo; rw [h])) (by decide)
      · exact absurd hm h.2
      · exact absurd h.1 hb
    · exact driverRead_fails (C46_other 4 cv conv fuel fs name hb hm) (by decide)

/-- **C67.** A file that cannot be used, or a wrong number of arguments: every program ends with status 1 and reports nothing. -/
theorem C67_refused (hv : cv.Exact (fun _ => True)) (name pname a b : String) (rest : List String) (h : Unusable cv fs name)
    (k1 : CsrKind) (k2 : BlockedKind) :
    csrMain k1 m cv conv fuel fs (name :: rest) = .ok (1, []) ∧ csrMain k1 m cv conv fuel fs [] = .ok (1, []) ∧
    cswrMain atoi m cv conv fuel fs [name] = .ok (1, []) ∧ cswrMain atoi m cv conv fuel fs [name, a] = .ok (1, []) ∧
    blockedMain k2 m cv conv fuel fs [name] = .ok (1, []) ∧ blockedMain k2 m cv conv fuel fs [name, a, b] = .ok (1, []) ∧
    benchMain m cv conv fuel fs [name] = .ok (1, []) ∧ pbenchMain malloc0 m cv conv fuel fs [name, pname] = .ok (1, []) ∧
    (∀ args : List String, args.length ≠ 1 → args.length ≠ 3 → blockedMain k2 m cv conv fuel fs args = .ok (1, [])) ∧
    (∀ args : List String, args.length ≠ 1 → args.length ≠ 2 → cswrMain atoi m cv conv fuel fs args = .ok (1, [])) ∧
    (∀ args : List String, args.length ≠ 1 → benchMain m cv conv fuel fs args = .ok (1, [])) ∧
    (∀ args : List String, args.length ≠ 2 → pbenchMain malloc0 m cv conv fuel fs args = .ok (1, [])) := by
  have hr := driverRead_unusable cv conv fuel fs hv name h
  refine ⟨?_, rfl, ?_, ?_, ?_, ?_, ?_, ?_, fun args h1 h2 => ?_, fun args h1 h2 => ?_, fun args h1 => ?_, fun args h1 => ?_⟩
  · unfold csrMain; simp only; rw [hr, ok_bind]
  · unfold cswrMain; simp only; rw [hr, ok_bind]
  · unfold cswrMain; simp only; rw [hr, ok_bind]
  · unfold blockedMain; rw [if_neg (by simp)]; simp only; rw [hr, ok_bind]
  · unfold blockedMain; rw [if_neg (by simp)]; simp only; rw [hr, ok_bind]
  · unfold benchMain; simp only; rw [hr, ok_bind]
  · unfold pbenchMain; simp only; rw [hr, ok_bind]
  · unfold blockedMain; rw [if_pos (by omega)]
  · unfold cswrMain
    match args, h1, h2 with
    | [], _, _ => rfl
    | [_], h, _ => exact absurd rfl h
    | [_, _], _, h => exact absurd rfl h
    | _ :: _ :: _ :: _, _, _ => rfl
  · unfold benchMain
    match args, h1 with
    | [], _ => rfl
    | [_], h => exact absurd rfl h
    | _ :: _ :: _, _ => rfl
  · unfold pbenchMain
    match args, h1 with
    | [], _ => rfl
    | [_], _ => rfl
    | [_, _], h => exact absurd rfl h
    | _ :: _ :: _ :: _, _ => rfl

/-- **C67**, the block sizes of `blocked`: given as announced, with the file and two sizes, they are ignored; and no other number of
arguments that could carry them is accepted. -/
theorem C67_block_sizes_ignored (kind : BlockedKind) (name a b : String) :
    blockedMain kind m cv conv fuel fs [name, a, b] = blockedMain kind m cv conv fuel fs [name] ∧
    ∀ c, blockedMain kind m cv conv fuel fs [name, a, b, c] = .ok (1, []) := by
  refine ⟨?_, fun c => ?_⟩
  · unfold blockedMain
    rw [if_neg (by simp), if_neg (by simp)]
  · unfold blockedMain
    rw [if_pos (by simp)]

/-- **C67**, small matrices: with at most `4 * workers` rows (several workers) or two rows (one worker) the blocked benchmark, in all
its variants, divides by zero, and bench does so after its CSR benchmark. -/
theorem C67_small (hv : cv.Exact (fun _ => True)) (hfuel : 0 < fuel) (name : String) (rows columns : Nat) (es : List (Ent T))
    (kind : BlockedKind) (hval : m.valSize ≤ l2Size) (hw : 8 * m.workers < 2 ^ 31)
    (hsmall : rows ≤ max 2 (4 * m.workers) ∧ (1 < m.workers ∨ rows ≤ 2)) (hc : columns < 2 ^ 32) (hn : es.length < 2 ^ 32)
    (hi : 0 < m.iterations ∧ m.iterations < 2 ^ 64)
    (hin : InRange es rows columns) (hf : FileHolds cv conv fs name rows columns es) :
    blockedMain kind m cv conv fuel fs [name] = .error .divZero ∧ benchMain m cv conv fuel fs [name] = .error .divZero := by
  have hread := driverRead_ok cv hv conv fuel hfuel fs name rows columns es (by omega) hc hn hin hf
  have hpick := C31_small_zero m.logbeta rows columns m.valSize m.workers hc hval hw hsmall
  have hlen : (asElements es).length = es.length := List.length_map _
  constructor
  · unfold blockedMain
    rw [if_neg (by simp)]
    simp only
    rw [hread, ok_bind]
    simp only
    rw [hpick, ok_bind]
    cases kind <;> rfl
  · obtain ⟨A, es', h1, hp, h2⟩ := matRight_csr (asElements es) rows columns (by omega) (by omega) hc (by rw [ents_asElements]; exact hin)
    obtain ⟨b1, e1, -⟩ := benchmark_ok m A.toMat "CSR" h2 hi.1 hi.2
    unfold benchMain
    simp only
    rw [hread, ok_bind]
    simp only
    rw [hpick, ok_bind]
    unfold benchBoth
    rw [h1, ok_bind]
    simp only
    rw [e1, ok_bind]
    rfl

/-- **C67**, small matrices: with a good permutation pbench, too, divides by zero after its CSR benchmark. -/
theorem C67_pbench_small (hv : cv.Exact (fun _ => True))
    (hfuel : 0 < fuel) (name pname : String) (p : List Nat)
    (rows columns : Nat) (es : List (Ent T)) (hval : m.valSize ≤ l2Size) (hw : 8 * m.workers < 2 ^ 31)
    (hsmall : rows ≤ max 2 (4 * m.workers) ∧ (1 < m.workers ∨ rows ≤ 2)) (hc : columns < 2 ^ 32) (hn : es.length < 2 ^ 32)
    (hi : 0 < m.iterations ∧ m.iterations < 2 ^ 64) (hne : es ≠ [])
    (hin : InRange es rows columns) (hf : FileHolds cv conv fs name rows columns es)
    (hpf : fs pname = some (packed (idx 4) p)) (hpl : p.length < 2 ^ 32)
    (hpr : rows ≤ p.length) (hpc : columns ≤ p.length) (hperm : IsPerm p.length (fun k => p.getD k 0))
    (hkeep : ∀ k, k < p.length → (p.getD k 0 < rows → k < rows) ∧ (p.getD k 0 < columns → k < columns)) :
    pbenchMain malloc0 m cv conv fuel fs [name, pname] = .error .divZero := by
  have hpick := C31_small_zero m.logbeta rows columns m.valSize m.workers hc hval hw hsmall
  obtain ⟨σ, -, -, hin', hreach⟩ := pbench_reaches m cv conv fuel fs name rows columns es malloc0 pname p 0 hpick hne (by omega) hc
    hn hin hv hfuel hf hpf hpl hpr hpc hperm hkeep
  have hlen : (asElements (relabel σ σ es)).length = es.length := by simp [asElements, relabel]
  obtain ⟨A, es', h1, hp, h2⟩ := matRight_csr (asElements (relabel σ σ es)) rows columns (by omega) (by omega) hc (by rw [ents_asElements]; exact hin')
  obtain ⟨b1, e1, -⟩ := benchmark_ok m A.toMat "CSR" h2 hi.1 hi.2
  rw [hreach]
  unfold benchBoth
  rw [h1, ok_bind]
  simp only
  rw [e1, ok_bind]
  rfl

/-- **C67**, pbench without its permutation: when a block size can be chosen and the second file is missing (or empty, on a
system where `malloc(0)` gives no memory) it ends with status 1 and reports nothing. -/
theorem C67_pbench_no_permutation (hv : cv.Exact (fun _ => True)) (hfuel : 0 < fuel) (name pname : String) (rows columns : Nat)
    (es : List (Ent T)) (beta : Nat) (hpick : pickBlockSize 32 m.logbeta rows columns m.valSize m.workers = .ok beta)
    (hr : rows < 2 ^ 32) (hc : columns < 2 ^ 32) (hn : es.length < 2 ^ 32) (hin : InRange es rows columns)
    (hf : FileHolds cv conv fs name rows columns es) (hp : fs pname = none ∨ (fs pname = some [] ∧ malloc0 = false)) :
    pbenchMain malloc0 m cv conv fuel fs [name, pname] = .ok (1, []) := by
  have hread := driverRead_ok cv hv conv fuel hfuel fs name rows columns es hr hc hn hin hf
  unfold pbenchMain
  simp only
  rw [hread, ok_bind]
  simp only
  rw [hpick, ok_bind]
  rcases hp with hp | ⟨hp, rfl⟩
  · rw [readBinArray_missing _ _ _ _ hp, ok_bind]
  · have : readBinArray (idx 4) false fs pname = .ok (some (-1, Buf.uninit 0, 0)) := by
      unfold readBinArray getFileSize
      rw [hp]
      rfl
    rw [this, ok_bind]
    rfl

/-- **C67**, pbench with a permutation that is too short for the matrix: it reads outside the array of the inverse. -/
theorem C67_pbench_short_permutation (hv : cv.Exact (fun _ => True)) (hfuel : 0 < fuel) (name pname : String) (rows columns : Nat)
    (es : List (Ent T)) (beta : Nat) (hpick : pickBlockSize 32 m.logbeta rows columns m.valSize m.workers = .ok beta)
    (hr : rows < 2 ^ 32) (hc : columns < 2 ^ 32) (hn : es.length < 2 ^ 32) (hin : InRange es rows columns)
    (hf : FileHolds cv conv fs name rows columns es) (p : List Nat) (hpf : fs pname = some (packed (idx 4) p)) (hpl : p.length < 2 ^ 32)
    (hpos : p ≠ []) (hperm : IsPerm p.length (fun k => p.getD k 0)) (hshort : ∃ e ∈ es, p.length ≤ e.row ∨ p.length ≤ e.col) :
    pbenchMain malloc0 m cv conv fuel fs [name, pname] = .error .oob := by
  have hread := driverRead_ok cv hv conv fuel hfuel fs name rows columns es hr hc hn hin hf
  have hget : ∀ k, k < p.length → (Buf.ofList p).get k = .ok (p.getD k 0) := fun k hk => by
    refine Buf.get_ok (by show k < p.length; omega) ?_
    show p[k]? = some _
    rw [List.getElem?_eq_getElem (by omega), List.getD_eq_getElem?_getD, List.getElem?_eq_getElem (by omega)]
    rfl
  obtain ⟨q, σ, -, i1, i2, i3, -, -, -⟩ := C32_invert (Buf.ofList p) p.length _ hget hperm
  have hit : items (idx 4) (packed (idx 4) p) = p := by
    have := items_packed idx4_exact p (fun a ha => by
      obtain ⟨k, hk, rfl⟩ := List.getElem_of_mem ha
      have := hperm.lt k (by omega)
      rw [List.getD_eq_getElem?_getD, List.getElem?_eq_getElem hk] at this
      simp only [Option.getD_some] at this
      omega) [] (by decide)
    rwa [List.append_nil] at this
  have hoob : ∀ k, p.length ≤ k → q.get k = .error .oob := fun k hk => by
    unfold Buf.get
    rw [if_neg (by omega)]
  have hpe : permuteElements q (asElements es) = .error .oob := by
    unfold permuteElements asElements
    clear hn hin hf hread
    induction es with
    | nil => obtain ⟨e, he, -⟩ := hshort; cases he
    | cons e es ih =>
      rw [List.map_cons, List.mapM_cons]
      by_cases h : p.length ≤ e.row ∨ p.length ≤ e.col
      · have : permuteElement q (⟨e.row, e.col, e.val, 0⟩ : Element T) = .error .oob := by
          unfold permuteElement
          simp only
          by_cases h1 : p.length ≤ e.row
          · rw [hoob _ h1]; rfl
          · rw [i3 _ (by omega), ok_bind, hoob _ (by omega)]; rfl
        rw [this]
        rfl
      · have : permuteElement q (⟨e.row, e.col, e.val, 0⟩ : Element T) = .ok ⟨σ e.row, σ e.col, e.val, 0⟩ := by
          unfold permuteElement
          simp only
          rw [i3 _ (by omega), ok_bind, i3 _ (by omega), ok_bind]
        rw [this, ok_bind, ih (by
          obtain ⟨a, ha, h'⟩ := hshort
          rcases List.mem_cons.1 ha with rfl | ha
          · exact absurd h' h
          · exact ⟨a, ha, h'⟩)]
        rfl
  unfold pbenchMain
  simp only
  rw [hread, ok_bind]
  simp only
  rw [hpick, ok_bind, readBinArray_items (by decide) malloc0 fs pname _ hpf (.inl (by rw [hit]; exact hpos)), ok_bind, hit]
  simp only
  rw [if_neg (by decide), Nat.mod_eq_of_lt (by omega), i1, ok_bind, hpe]
  rfl

/-- **C67**, cswr with width 0 (also what `atoi` makes of a word that is no number) divides by zero. -/
theorem C67_cswr_zero (hv : cv.Exact (fun _ => True)) (hfuel : 0 < fuel) (name w : String) (rows columns : Nat) (es : List (Ent T))
    (hw : atoi w = 0) (hr : rows + 1 < 2 ^ 32) (hc : columns < 2 ^ 32) (hn : es.length < 2 ^ 32)
    (hin : InRange es rows columns) (hf : FileHolds cv conv fs name rows columns es) :
    cswrMain atoi m cv conv fuel fs [name, w] = .error .divZero := by
  have hread := driverRead_ok cv hv conv fuel hfuel fs name rows columns es (by omega) hc hn hin hf
  unfold cswrMain
  simp only
  rw [hread, ok_bind, hw]
  rfl

/-- **C67**, no iterations (`-DITERATIONS=0`): after the warm-up multiplication the csr benchmark, in both variants, reads outside the
array of times, and so do cswr, bench (in its CSR benchmark) and blocked when it is compiled for `Csbr` or `Csbr2`. -/
theorem C67_no_iterations (hv : cv.Exact (fun _ => True)) (hfuel : 0 < fuel) (name : String) (rest : List String) (rows columns : Nat)
    (es : List (Ent T)) (hi : m.iterations = 0) (hr : rows + 1 < 2 ^ 32) (hc : columns < 2 ^ 32) (hn : es.length < 2 ^ 32)
    (hin : InRange es rows columns) (hf : FileHolds cv conv fs name rows columns es) :
    (∀ kind, csrMain kind m cv conv fuel fs (name :: rest) = .error .oob) ∧
    (rows + 32 < 2 ^ 32 → cswrMain atoi m cv conv fuel fs [name] = .error .oob) ∧
    (∀ beta, pickBlockSize 32 m.logbeta rows columns m.valSize m.workers = .ok beta → benchMain m cv conv fuel fs [name] = .error .oob) ∧
    (∀ beta kind, (kind = .csbr ∨ kind = .csbr2) → pickBlockSize 32 m.logbeta rows columns m.valSize m.workers = .ok beta →
      beta ≠ 0 → 0 < m.workers → es ≠ [] → max 1 (rows / beta) * max 1 (columns / beta) < 2 ^ 32 → columns + 1 < 2 ^ 32 →
      blockedMain kind m cv conv fuel fs [name] = .error .oob) := by
  have hread := driverRead_ok cv hv conv fuel hfuel fs name rows columns es (by omega) hc hn hin hf
  have id1 : ents es = es := List.map_id es
  have hlen : (asElements es).length = es.length := List.length_map _
  refine ⟨fun kind => ?_, fun hr' => ?_, fun beta hpick => ?_, fun beta kind hkind hpick hb hw hne hgrid hc' => ?_⟩
  · unfold csrMain
    simp only
    rw [hread, ok_bind]
    simp only
    cases kind
    · obtain ⟨A, es', h1, -, h2⟩ := matRight_csr es rows columns hn hr hc (by rw [id1]; exact hin)
      unfold csrConvert
      simp only
      rw [h1, ok_bind, ok_bind, benchmark_zero m A.toMat "CSR" h2 hi]
      rfl
    · obtain ⟨A, es', h1, h2⟩ := matRight_csr2 es rows columns hn hr (by rw [id1]; exact hin)
      unfold csrConvert
      simp only
      rw [h1, ok_bind, ok_bind, benchmark_zero m A.toMat "CSR" h2 hi]
      rfl
  · obtain ⟨A, es', h1, h2⟩ := matRight_cswr es rows columns 32 (by decide) (by decide) hn hr' (by rw [id1]; exact hin)
    unfold cswrMain
    simp only
    rw [hread, ok_bind]
    simp only
    rw [h1, ok_bind, benchmark_zero m A.toMat "CSWR" h2 hi]
    rfl
  · obtain ⟨A, es', h1, -, h2⟩ := matRight_csr (asElements es) rows columns (by omega) hr hc (by rw [ents_asElements]; exact hin)
    unfold benchMain
    simp only
    rw [hread, ok_bind]
    simp only
    rw [hpick, ok_bind]
    unfold benchBoth
    rw [h1, ok_bind]
    simp only
    rw [benchmark_zero m A.toMat "CSR" h2 hi]
    rfl
  · have hne' : asElements es ≠ [] := by simpa [asElements] using hne
    unfold blockedMain
    rw [if_neg (by simp)]
    simp only
    rw [hread, ok_bind]
    simp only
    rw [hpick, ok_bind]
    rcases hkind with rfl | rfl
    · obtain ⟨A, es', h1, -, h2⟩ := matRight_csbr (asElements es) rows columns beta m.workers (by omega) hw hne' (by rw [hlen]; exact hn)
        hgrid hr hc' (by rw [ents_asElements]; exact hin)
      unfold blockedConvert
      simp only
      rw [h1, ok_bind, ok_bind, benchmark_zero m A.toMat "GSB" h2 hi]
      rfl
    · obtain ⟨A, es', h1, -, h2⟩ := matRight_csbr2 (asElements es) rows columns beta (by omega) hne' (by rw [hlen]; exact hn)
        hgrid hr hc' (by rw [ents_asElements]; exact hin)
      unfold blockedConvert
      simp only
      rw [h1, ok_bind, ok_bind, benchmark_zero m A.toMat "GSB" h2 hi]
      rfl

omit [Add T] [Mul T] in
theorem benchmark_never (hi : m.iterations = 0) (A : Mat T) (method : String) (b : Bench T τ) : benchmark m A method ≠ .ok b := by
  intro h
  unfold benchmark at h
  obtain ⟨y, -, h⟩ := bind_ok h
  obtain ⟨y, -, h⟩ := bind_ok h
  obtain ⟨n, -, h⟩ := bind_ok h
  obtain ⟨s, h, -⟩ := bind_ok h
  rw [hi] at h
  simp [timingStats, List.mergeSort, Buf.get, Buf.ofList] at h

theorem benchBoth_never (hi : m.iterations = 0) (es : List (Element T)) (rows columns beta : Nat) (r : Run T τ) :
    benchBoth m es rows columns beta ≠ .ok r := by
  intro h
  unfold benchBoth at h
  obtain ⟨A, -, h⟩ := bind_ok h
  obtain ⟨b, h, -⟩ := bind_ok h
  exact benchmark_never m hi _ _ b h

/-- **C67**, no iterations, for every program, every argument list and every content of the files: the only runs that end properly
are those that are refused, with status 1 and nothing reported. -/
theorem C67_no_iterations_refused (hi : m.iterations = 0) (args : List String) (r : Run T τ) (k1 : CsrKind) (k2 : BlockedKind)
    (h : csrMain k1 m cv conv fuel fs args = .ok r ∨ cswrMain atoi m cv conv fuel fs args = .ok r ∨
      blockedMain k2 m cv conv fuel fs args = .ok r ∨ benchMain m cv conv fuel fs args = .ok r ∨
      pbenchMain malloc0 m cv conv fuel fs args = .ok r) : r = (1, []) := by
  rcases h with h | h | h | h | h
  · unfold csrMain at h
    split at h
    · cases h; rfl
    · obtain ⟨x, -, h⟩ := bind_ok h
      split at h
      · cases h; rfl
      · obtain ⟨A, -, h⟩ := bind_ok h
        obtain ⟨b, h, -⟩ := bind_ok h
        exact absurd h (benchmark_never m hi _ _ b)
  · unfold cswrMain at h
    simp only at h
    split at h
    · obtain ⟨x, -, h⟩ := bind_ok h
      split at h
      · cases h; rfl
      · obtain ⟨A, -, h⟩ := bind_ok h
        obtain ⟨b, h, -⟩ := bind_ok h
        exact absurd h (benchmark_never m hi _ _ b)
    · obtain ⟨x, -, h⟩ := bind_ok h
      split at h
      · cases h; rfl
      · obtain ⟨A, -, h⟩ := bind_ok h
        obtain ⟨b, h, -⟩ := bind_ok h
        exact absurd h (benchmark_never m hi _ _ b)
    · cases h; rfl
  · unfold blockedMain at h
    split at h
    · cases h; rfl
    · split at h
      · cases h
      · obtain ⟨x, -, h⟩ := bind_ok h
        split at h
        · cases h; rfl
        · obtain ⟨beta, -, h⟩ := bind_ok h
          obtain ⟨A, -, h⟩ := bind_ok h
          obtain ⟨b, h, -⟩ := bind_ok h
          exact absurd h (benchmark_never m hi _ _ b)
  · unfold benchMain at h
    split at h
    · obtain ⟨x, -, h⟩ := bind_ok h
      split at h
      · cases h; rfl
      · obtain ⟨beta, -, h⟩ := bind_ok h
        exact absurd h (benchBoth_never m hi _ _ _ _ r)
    · cases h; rfl
  · unfold pbenchMain at h
    split at h
    · obtain ⟨x, -, h⟩ := bind_ok h
      split at h
      · cases h; rfl
      · obtain ⟨beta, -, h⟩ := bind_ok h
        obtain ⟨y, -, h⟩ := bind_ok h
        split at h
        · cases h; rfl
        · split at h
          · cases h; rfl
          · obtain ⟨q, -, h⟩ := bind_ok h
            obtain ⟨es, -, h⟩ := bind_ok h
            exact absurd h (benchBoth_never m hi _ _ _ _ r)
    · cases h; rfl

end

/-! ### The hypotheses are met -/

/-- A machine with four workers and two iterations. -/
def exMachine : Machine UInt8 Nat :=
  ⟨2, 4, 4, fun _ _ => 1, fun _ i => 10 + i, fun t n => t / n, fun _ _ => 12, fun _ _ _ => .coo, fun _ _ _ => false,
    fun _ _ _ => .dense, true⟩

/-- Files for the examples: a 1000 × 1000 matrix with two entries, a small one, a permutation, half a matrix. -/
def exFiles : FS := fun name =>
  if name = "a.bin" then some (binFile 4 byteCodec 1000 1000 [⟨999, 3, 7⟩, ⟨0, 999, 5⟩])
  else if name = "s.bin" then some (binFile 4 byteCodec 3 3 [⟨2, 1, 7⟩])
  else if name = "h.bin" then some ((binFile 4 byteCodec 3 3 [⟨2, 1, 7⟩]).take 15)
  else if name = "b.mtx" then some (exFile "symmetric").text
  else if name = "p" then some (packed (idx 4) ((List.range 1000).map (fun k => 999 - k)))
  else none

theorem byteCodec_exact : byteCodec.Exact (fun _ => True) := ⟨by decide, fun _ => rfl, fun _ _ => rfl⟩

open scoped UInt8.CommRing in
/-- C66: a run of bench, and of blocked for all kinds, on a file of two entries. -/
example : (∃ b1 b2, benchMain exMachine byteCodec (fun _ => 0) 1 exFiles ["a.bin"] = .ok (0, [b1, b2]) ∧
      b1.Right exMachine "CSR" 1000 2 (spmvExact [⟨999, 3, 7⟩, ⟨0, 999, 5⟩]) ∧
      b2.Right exMachine "GSB" 1000 2 (spmvSum [⟨999, 3, 7⟩, ⟨0, 999, 5⟩])) ∧
    (∃ b, blockedMain .csbr exMachine byteCodec (fun _ => 0) 1 exFiles ["a.bin", "16", "16"] = .ok (0, [b]) ∧
      b.Right exMachine "GSB" 1000 2 (spmvExact [⟨999, 3, 7⟩, ⟨0, 999, 5⟩])) ∧
    (∃ b, blockedMain .cgbr2 exMachine byteCodec (fun _ => 0) 1 exFiles ["a.bin"] = .ok (0, [b]) ∧
      b.Right exMachine "GSB" 1000 2 (spmvSum [⟨999, 3, 7⟩, ⟨0, 999, 5⟩])) ∧
    (∃ b, csrMain .csr2 exMachine byteCodec (fun _ => 0) 1 exFiles ["a.bin"] = .ok (0, [b]) ∧
      b.Right exMachine "CSR" 1000 2 (spmvExact [⟨999, 3, 7⟩, ⟨0, 999, 5⟩])) ∧
    (∃ b, cswrMain (fun _ => 8) exMachine byteCodec (fun _ => 0) 1 exFiles ["a.bin", "8"] = .ok (0, [b]) ∧
      b.Right exMachine "CSWR" 1000 2 (spmvExact [⟨999, 3, 7⟩, ⟨0, 999, 5⟩])) := by
  have hf : FileHolds byteCodec (fun _ => 0) exFiles "a.bin" 1000 1000 [⟨999, 3, 7⟩, ⟨0, 999, 5⟩] := .inl ⟨⟨['a'], by decide⟩, rfl⟩
  have hi : 0 < exMachine.iterations ∧ exMachine.iterations < 2 ^ 64 := by decide
  have hin : InRange [(⟨999, 3, 7⟩ : Ent UInt8), ⟨0, 999, 5⟩] 1000 1000 := by decide
  have hpick : pickBlockSize 32 exMachine.logbeta 1000 1000 exMachine.valSize exMachine.workers = .ok 32 := by decide +kernel
  refine ⟨C66_bench exMachine byteCodec _ 1 exFiles "a.bin" 1000 1000 _ hi 32 (.inr (by decide)) (by decide) (by decide) (by decide) hpick
      (by decide) (by simp) (by decide) (by decide) (by decide) (by simp) hin byteCodec_exact (by decide) hf,
    C66_blocked_exact exMachine byteCodec byteCodec_exact _ 1 (by decide) exFiles "a.bin" 1000 1000 _ hi .csbr (.inl rfl) 32 _
      (.inr ⟨_, _, rfl⟩) (by decide) hpick (by decide) (by simp) (by decide) (by decide) (by decide) (by simp) hin hf,
    C66_blocked_sum exMachine byteCodec _ 1 exFiles "a.bin" 1000 1000 _ hi .cgbr2 32 _ (.inl rfl) (.inr ⟨rfl, .inr (by decide)⟩) (by decide)
      (by decide) (by decide) hpick (by decide) (by simp) (by decide) (by decide) (by decide) (by simp) hin byteCodec_exact (by decide) hf,
    C66_csr exMachine byteCodec byteCodec_exact _ 1 (by decide) exFiles "a.bin" 1000 1000 _ hi .csr2 [] (by decide) (by decide) (by simp)
      hin hf,
    C66_cswr exMachine byteCodec byteCodec_exact _ 1 (by decide) exFiles "a.bin" 1000 1000 _ hi (fun _ => 8) 8 _
      (.inr ⟨_, rfl, rfl⟩) (by decide) (by decide) (by decide) (by decide) (by simp) hin hf⟩

/-- C66: a MatrixMarket file, and the permutation that reverses the rows. -/
example : FileHolds byteCodec (fun b => b.headD 0) exFiles "b.mtx" 3 3
      (((exFile "symmetric").lines.map (MmLine.ent (fun b => b.headD 0))).flatMap mirrored) ∧
    exFiles "p" = some (packed (idx 4) ((List.range 1000).map (fun k => 999 - k))) ∧
    IsPerm 1000 (fun k => ((List.range 1000).map (fun k => 999 - k)).getD k 0) ∧
    ∀ k, k < 1000 → ((List.range 1000).map (fun k => 999 - k)).getD k 0 < 1000 → k < 1000 := by
  have hg : ∀ k, k < 1000 → ((List.range 1000).map (fun k => 999 - k)).getD k 0 = 999 - k := by
    intro k hk
    rw [List.getD_eq_getElem?_getD, List.getElem?_map, List.getElem?_range hk]
    rfl
  refine ⟨.inr ⟨⟨['b'], by decide⟩, exFile "symmetric", exFile_ok _ (.inr (.inl rfl)), rfl, .inl rfl, rfl, rfl, by decide, by decide,
    by decide, .inr ⟨rfl, rfl⟩⟩, rfl, ⟨fun k hk => ?_, fun j k hj hk h => ?_⟩, fun k hk _ => hk⟩
  · simp only [hg k hk]; omega
  · simp only [hg k hk, hg j hj] at h; omega

/-- C66 and C67: a permutation of four that keeps two rows and three columns, as C66_pbench asks, and one that is too short for the
file `a.bin`. -/
example : (∀ k, k < [1, 0, 2, 3].length → ([1, 0, 2, 3].getD k 0 < 2 → k < 2) ∧ ([1, 0, 2, 3].getD k 0 < 3 → k < 3)) ∧
    IsPerm [1, 0, 2, 3].length (fun k => [1, 0, 2, 3].getD k 0) ∧
    FileHolds byteCodec (fun _ => 0) exFiles "a.bin" 1000 1000 [⟨999, 3, 7⟩, ⟨0, 999, 5⟩] ∧
    (∃ e ∈ [(⟨999, 3, 7⟩ : Ent UInt8), ⟨0, 999, 5⟩], [1, 0, 2, 3].length ≤ e.row ∨ [1, 0, 2, 3].length ≤ e.col) ∧
    exFiles "none" = none :=
  ⟨by decide, ⟨by decide, fun j k hj hk => (by decide : ∀ j < 4, ∀ k < 4, [1, 0, 2, 3].getD j 0 = [1, 0, 2, 3].getD k 0 → j = k) j hj k hk⟩, .inl ⟨⟨['a'], by decide⟩, rfl⟩, ⟨_, List.mem_cons_self, by decide⟩, rfl⟩

/-- C67: a missing file, a name without suffix, a truncated file; a matrix small for four workers. -/
example : Unusable byteCodec exFiles "none.bin" ∧ Unusable byteCodec exFiles "p" ∧ Unusable byteCodec exFiles "h.bin" ∧
    FileHolds byteCodec (fun _ => 0) exFiles "s.bin" 3 3 [⟨2, 1, 7⟩] ∧ 3 ≤ max 2 (4 * exMachine.workers) ∧ 1 < exMachine.workers := by
  refine ⟨.inl rfl, .inr (.inl ⟨?_, ?_⟩), .inr (.inr ⟨⟨['h'], by decide⟩, 3, 3, [⟨2, 1, 7⟩], 15, by decide, by decide, by decide, by decide, rfl⟩),
    .inl ⟨⟨['s'], by decide⟩, rfl⟩, by decide, by decide⟩
  · rw [← C46_suffix]; decide
  · rw [← C46_suffix]; decide

/-- C66, where the bound on the number of blocks fails: the block size picked with two workers for a 20 × 2^30 matrix gives more than
2^32 blocks, so that block ids coincide (C54). -/
example : pickBlockSize 32 (fun _ _ => 12) 20 (2 ^ 30) 4 2 = .ok 2 ∧ 2 ^ 32 < max 1 (20 / 2) * max 1 (2 ^ 30 / 2) :=
  ⟨by decide +kernel, by decide⟩

end Gsb
