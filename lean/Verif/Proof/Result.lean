import Verif.Model.Result
import Verif.Proof.Drivers
import Verif.Proof.Tools3
import Verif.Spec.Result
/-
Lemmas about result.cpp and test/utils.h.
-/
namespace Gsb
variable {T τ : Type}

/-! ### Sorting and the exact product -/

/-- The exact product depends only on the order of the entries at each place. -/
theorem spmvExact_samePlaces [Add T] [Mul T] {l es : List (Ent T)} (h : SamePlaces l es) : spmvExact l = spmvExact es := by
  funext x y i
  unfold spmvExact
  congr 1
  have htp : TotalPre (fun a b : Ent T => decide (a.col ≤ b.col)) :=
    ⟨fun a b c h1 h2 => by simp only [decide_eq_true_eq] at *; omega,
      fun a b => by simp only [Bool.or_eq_true, decide_eq_true_eq]; omega⟩
  unfold rowByColumn
  refine isStableSort_unique htp (l := rowEntries es i) ?_ (isStableSort_mergeSort htp _)
  have hm := isStableSort_mergeSort htp (rowEntries l i)
  refine ⟨hm.perm.trans (h.perm.filter _), hm.sorted, fun a => ?_⟩
  rw [hm.stable a]
  have : ∀ k : List (Ent T), (rowEntries k i).filter (fun b => decide (a.col ≤ b.col) && decide (b.col ≤ a.col)) =
      k.filter (fun e => e.row == i && e.col == a.col) := by
    intro k
    unfold rowEntries
    rw [List.filter_filter]
    congr 1
    funext b
    rw [Bool.eq_iff_iff]
    simp only [Bool.and_eq_true, decide_eq_true_eq, beq_iff_eq]
    omega
  rw [this, this]
  exact h.places _ _

/-- A stable sort under which elements at the same place compare equal. -/
theorem samePlaces_mergeSort {ε : Type} [NZ ε T] {le : ε → ε → Bool} (h : TotalPre le) (l : List ε)
    (heq : ∀ a ∈ l, ∀ b ∈ l, (NZ.toEnt a).row = (NZ.toEnt b).row → (NZ.toEnt a).col = (NZ.toEnt b).col → le a b = true) :
    SamePlaces (ents (l.mergeSort le)) (ents l) := by
  refine ⟨(List.mergeSort_perm _ _).map _, fun i j => ?_⟩
  unfold ents
  rw [List.filter_map, List.filter_map, filter_mergeSort h]
  congr 1
  refine List.mergeSort_of_pairwise ?_
  refine List.Pairwise.imp_of_mem (R := fun _ _ => True) ?_ (List.pairwise_of_forall (fun _ _ => trivial))
  intro x y hx hy _
  simp only [List.mem_filter, Function.comp_apply, Bool.and_eq_true, beq_iff_eq] at hx hy
  exact heq x hx.1 y hy.1 (by omega) (by omega)

theorem samePlaces_triplets {ε : Type} [NZ ε T] (l : List ε) : SamePlaces (ents (sortTriplets l)) (ents l) := by
  refine samePlaces_mergeSort totalPre_rowMajor l (fun a _ b _ h1 h2 => ?_)
  simp [leOf, ltRowMajor, h1, h2]

theorem samePlaces_wide {ε : Type} [NZ ε T] (width : Nat) (l : List ε) : SamePlaces (ents (sortTripletsWide width l)) (ents l) := by
  refine samePlaces_mergeSort (totalPre_wide width) l (fun a _ b _ h1 h2 => ?_)
  simp [leOf, ltWide, h1, h2]

theorem ents_withKey (K : Nat → Nat → Nat) (l : List (Element T)) : ents (l.map (withKey K)) = ents l := by
  unfold ents
  rw [List.map_map]
  rfl

theorem samePlaces_prepared (offR : List Nat) (br : Nat) (offC : List Nat) (bc : Nat) (l : List (Element T)) :
    SamePlaces (ents (prepared offR br offC bc l)) (ents l) := by
  have : SamePlaces (ents (prepared offR br offC bc l)) (ents (l.map (withKey (blockKey offR br offC bc)))) := by
    refine samePlaces_mergeSort totalPre_blocks _ (fun a ha b hb h1 h2 => ?_)
    obtain ⟨a', -, rfl⟩ := List.mem_map.1 ha
    obtain ⟨b', -, rfl⟩ := List.mem_map.1 hb
    have h1 : a'.row = b'.row := h1
    have h2 : a'.col = b'.col := h2
    simp [leOf, ltBlocks, withKey, h1, h2]
  rw [ents_withKey] at this
  exact this

/-! ### What the conversions leave in the array of elements -/

section
variable [Add T] [Mul T]

theorem csr_step {ε : Type} [NZ ε T] (es : List ε) (rows columns : Nat) (hn : es.length < 2 ^ 32) (hr : rows + 1 < 2 ^ 32)
    (hc : columns < 2 ^ 32) (hin : InRange (ents es) rows columns) :
    ∃ A es', (cooToCsr (2 ^ 32) es rows columns : C (Csr T × List ε)) = .ok (A, es') ∧ SamePlaces (ents es') (ents es) ∧
      MatRight A.toMat rows columns es.length (spmvExact (ents es)) := by
  obtain ⟨A, es', h1, -, h2⟩ := matRight_csr es rows columns hn hr hc hin
  refine ⟨A, es', h1, ?_, h2⟩
  unfold cooToCsr at h1
  simp only [Bool.false_eq_true, if_false] at h1
  cases hb : (csrBuild (2 ^ 32) (2 ^ 32) (sortTriplets es) rows columns : C (Csr T)) with
  | error e => rw [hb] at h1; cases h1
  | ok B => rw [hb] at h1; cases h1; exact samePlaces_triplets es

theorem csr2_step {ε : Type} [NZ ε T] (es : List ε) (rows columns : Nat) (hn : es.length < 2 ^ 32) (hr : rows + 1 < 2 ^ 32)
    (hin : InRange (ents es) rows columns) :
    ∃ A es', (cooToCsr2 (2 ^ 32) es rows columns : C (Csr2 T × List ε)) = .ok (A, es') ∧ SamePlaces (ents es') (ents es) ∧
      MatRight A.toMat rows columns es.length (spmvExact (ents es)) := by
  obtain ⟨A, es', h1, h2⟩ := matRight_csr2 es rows columns hn hr hin
  refine ⟨A, es', h1, ?_, h2⟩
  unfold cooToCsr2 at h1
  simp only [Bool.false_eq_true, if_false] at h1
  have key : ∀ {α β : Type} {m : C α} {f : α → C β} {b : β}, m >>= f = .ok b → ∃ a, m = .ok a ∧ f a = .ok b := by
    intro α β m f b h
    cases m with
    | error e => cases h
    | ok a => exact ⟨a, rfl, h⟩
  obtain ⟨s, -, h1⟩ := key h1
  try simp only at h1
  obtain ⟨s, -, h1⟩ := key h1
  try simp only at h1
  first
    | (cases h1; exact samePlaces_triplets es)
    | (obtain ⟨s, -, h1⟩ := key h1
       try simp only at h1
       obtain ⟨s, -, h1⟩ := key h1
       cases h1; exact samePlaces_triplets es)

theorem cswr_step {ε : Type} [NZ ε T] (es : List ε) (rows columns width : Nat) (hw : 0 < width) (hwS : width ≤ 2 ^ 8)
    (hn : es.length < 2 ^ 32) (hr : rows + width < 2 ^ 32) (hin : InRange (ents es) rows columns) :
    ∃ A es', (cooToCswr (2 ^ 32) (2 ^ 8) es rows columns width : C (Cswr T × List ε)) = .ok (A, es') ∧
      SamePlaces (ents es') (ents es) ∧ MatRight A.toMat rows columns es.length (spmvExact (ents es)) := by
  obtain ⟨A, es', h1, h2⟩ := matRight_cswr es rows columns width hw hwS hn hr hin
  refine ⟨A, es', h1, ?_, h2⟩
  rw [cooToCswr_spec (2 ^ 32) (2 ^ 8) es rows columns width hw hn hr (fun e he => (hin e he).1)] at h1
  cases h1
  exact samePlaces_wide width es

end

theorem SamePlaces.inRange {l es : List (Ent T)} (h : SamePlaces l es) {rows columns : Nat} (hin : InRange es rows columns) :
    InRange l rows columns := fun e he => hin e (h.perm.mem_iff.1 he)

theorem length_of_samePlaces {ε ε' : Type} [NZ ε T] [NZ ε' T] {a : List ε} {b : List ε'} (h : SamePlaces (ents a) (ents b)) :
    a.length = b.length := by
  have := h.perm.length_eq
  unfold ents at this
  rw [List.length_map, List.length_map] at this
  exact this

/-! ### check_results -/

section
variable [Add T] [Mul T] [Zero T]

/-- The state of the loop of `check_results` after `k` rounds. -/
def checkState (fl : Arith T) (f g : Nat → T) : Nat → Nat × T × T × T
  | 0 => (0, 0, 0, 0)
  | k + 1 =>
    let s := checkState fl f g k
    if fl.ne (f k) (g k) then
      (s.1 + 1, s.2.1 + fl.sub (f k) (g k) * fl.sub (f k) (g k),
        if fl.gt (fl.abs (fl.sub (f k) (g k))) s.2.2.1 then fl.abs (fl.sub (f k) (g k)) else s.2.2.1, s.2.2.2 + f k * f k)
    else (s.1, s.2.1, s.2.2.1, s.2.2.2 + f k * f k)

theorem checkState_succ (fl : Arith T) (f g : Nat → T) (k : Nat) :
    checkState fl f g (k + 1) =
      let s := checkState fl f g k
      if fl.ne (f k) (g k) then
        (s.1 + 1, s.2.1 + fl.sub (f k) (g k) * fl.sub (f k) (g k),
          if fl.gt (fl.abs (fl.sub (f k) (g k))) s.2.2.1 then fl.abs (fl.sub (f k) (g k)) else s.2.2.1, s.2.2.2 + f k * f k)
      else (s.1, s.2.1, s.2.2.1, s.2.2.2 + f k * f k) := rfl

theorem checkState_wrong (fl : Arith T) (f g : Nat → T) (k : Nat) :
    (checkState fl f g k).1 = ((List.range k).filter (fun i => fl.ne (f i) (g i))).length := by
  induction k with
  | zero => rfl
  | succ k ih =>
    unfold checkState
    rw [List.range_succ, List.filter_append, List.length_append, ← ih]
    simp only
    by_cases h : fl.ne (f k) (g k) = true
    · simp [h]
    · simp [h]

theorem checkState_count (fl : Arith T) (f g : Nat → T) (k : Nat) :
    (checkState fl f g k).1 = ((Finset.range k).filter (fun i => fl.ne (f i) (g i) = true)).card := by
  induction k with
  | zero => rfl
  | succ k ih =>
    unfold checkState
    simp only
    rw [Finset.range_add_one, Finset.filter_insert]
    by_cases h : fl.ne (f k) (g k) = true
    · rw [if_pos h, if_pos h, Finset.card_insert_of_notMem (by simp), ← ih]
    · rw [if_neg h, if_neg h, ← ih]

theorem checkStep_ok (M : Nat) (fl : Arith T) (f g : Nat → T) (n1 n2 i : Nat) (h1 : i < n1) (h2 : i < n2) (hM : i + 1 < M) :
    checkStep M fl (Buf.full n1 f) (Buf.full n2 g) i (checkState fl f g i) = .ok (checkState fl f g (i + 1)) := by
  unfold checkStep
  rw [Buf.get_full (by omega), ok_bind, Buf.get_full (by omega), ok_bind]
  have hle : (checkState fl f g i).1 ≤ i := by
    rw [checkState_wrong]
    have := List.length_filter_le (fun i => fl.ne (f i) (g i)) (List.range i)
    rw [List.length_range] at this
    exact this
  conv => rhs; unfold checkState
  by_cases h : fl.ne (f i) (g i) = true
  · simp only [h, if_true]
    rw [addM_eq (by omega)]
  · simp only [h]; rfl

theorem checkResults_ok (M : Nat) (fl : Arith T) (f g : Nat → T) (n1 n2 size : Nat) (h1 : size ≤ n1) (h2 : size ≤ n2) (hM : size < M) :
    checkResults M fl (Buf.full n1 f) (Buf.full n2 g) size =
      .ok ⟨(checkState fl f g size).1, fl.div (checkState fl f g size).2.1 (fl.ofNat size),
        fl.div (fl.div (checkState fl f g size).2.1 (fl.ofNat size)) (checkState fl f g size).2.2.2, (checkState fl f g size).2.2.1,
        if (checkState fl f g size).1 > 0 then -1 else 0⟩ := by
  unfold checkResults
  rw [forLoop_closed' (s := (0, 0, 0, 0)) (fun k => checkState fl f g k) (Nat.zero_le _) rfl rfl
    (fun i _ hi => checkStep_ok M fl f g n1 n2 i (by omega) (by omega) (by omega)), ok_bind]

end

/-! ### result.cpp -/

/-- The part of result.cpp after the last of the formats that are exact. -/
def resultTail [Add T] [Mul T] [Zero T] (env : ResultEnv T) (m : Machine T τ) (rows columns beta : Nat) (es : List (Element T))
    (y1 : Buf T) (rs : List (Report T)) : C (Nat × List (Report T)) := do
  let x := Buf.full columns env.x
  let zero := Buf.full rows (fun _ => (0 : T))
  let a6 ← cooToCgbrConst (2 ^ 32) (2 ^ 32) m.workers env.choose32 env.heavy32 es rows columns beta beta
  let r5 ← resultSection env a6.1.toMat x y1 zero rows
  let a7 ← cooToCgbrConst (2 ^ 32) (2 ^ 16) m.workers m.choose m.heavy es rows columns beta beta
  let r6 ← resultSection env a7.1.toMat x y1 zero rows
  let a8 ← cooToCgbr2Const (2 ^ 32) (2 ^ 16) m.workers m.factory es rows columns beta beta
  let r7 ← resultSection env (a8.1.toMat m.balanced) x y1 zero rows
  .ok (0, rs ++ [r5, r6, r7])

theorem resultSection_eq [Add T] [Mul T] [Zero T] (env : ResultEnv T) (A : Mat T) (rows columns n : Nat)
    (P : (Nat → T) → (Nat → T) → Nat → T) (hA : MatRight A rows columns n P) (x f y2 : Nat → T) :
    resultSection env A (Buf.full columns x) (Buf.full rows f) (Buf.full rows y2) rows =
      checkResults (2 ^ 32) env.fl (Buf.full rows f) (Buf.full rows (P x y2)) rows := by
  unfold resultSection
  rw [hA.hmul, ok_bind]

/-- The report `check_results` makes. -/
def reportOf [Add T] [Mul T] [Zero T] (fl : Arith T) (f g : Nat → T) (size : Nat) : Report T :=
  ⟨(checkState fl f g size).1, fl.div (checkState fl f g size).2.1 (fl.ofNat size),
    fl.div (fl.div (checkState fl f g size).2.1 (fl.ofNat size)) (checkState fl f g size).2.2.2, (checkState fl f g size).2.2.1,
    if (checkState fl f g size).1 > 0 then -1 else 0⟩

theorem resultSection_report [Add T] [Mul T] [Zero T] (env : ResultEnv T) (A : Mat T) (rows columns n : Nat)
    (P : (Nat → T) → (Nat → T) → Nat → T) (hA : MatRight A rows columns n P) (x f y2 : Nat → T) (hr : rows < 2 ^ 32) :
    resultSection env A (Buf.full columns x) (Buf.full rows f) (Buf.full rows y2) rows = .ok (reportOf env.fl f (P x y2) rows) := by
  rw [resultSection_eq env A rows columns n P hA, checkResults_ok _ _ _ _ _ _ _ (Nat.le_refl _) (Nat.le_refl _) hr]
  rfl

theorem resultMain_eq [Add T] [Mul T] [Zero T] (env : ResultEnv T) (m : Machine T τ) (cv : Codec T) (hv : cv.Exact (fun _ => True))
    (conv : Bytes → T) (fuel : Nat) (hfuel : 0 < fuel) (fs : FS) (name : String) (rest : List String) (rows columns beta : Nat)
    (es : List (Ent T)) (hw : 0 < m.workers)
    (hpick : pickBlockSize 32 m.logbeta rows columns m.valSize m.workers = .ok beta) (hb : beta ≠ 0) (hne : es ≠ [])
    (hgrid : max 1 (rows / min beta (min rows columns)) * max 1 (columns / min beta (min rows columns)) < 2 ^ 32)
    (hr : rows + 32 < 2 ^ 32) (hc : columns + 1 < 2 ^ 32) (hn : es.length < 2 ^ 32) (hin : InRange es rows columns)
    (hf : FileHolds cv conv fs name rows columns es) :
    ∃ es' : List (Element T), SamePlaces (ents es') es ∧
      resultMain env m cv conv fuel fs (name :: rest) = resultTail env m rows columns (min beta (min rows columns)) es'
        (Buf.full rows (spmvExact es env.x env.y1))
        [reportOf env.fl (spmvExact es env.x env.y1) (spmvExact es env.x env.y2) rows,
         reportOf env.fl (spmvExact es env.x env.y1) (spmvExact es env.x (fun _ => 0)) rows,
         reportOf env.fl (spmvExact es env.x env.y1) (spmvExact es env.x (fun _ => 0)) rows,
         reportOf env.fl (spmvExact es env.x env.y1) (spmvExact es env.x (fun _ => 0)) rows] := by
  have hread := driverRead_ok cv hv conv fuel hfuel fs name rows columns es (by omega) (by omega) hn hin hf
  obtain ⟨e0, he0⟩ := List.exists_mem_of_ne_nil es hne
  have h00 := hin _ he0
  have hlen : (asElements es).length = es.length := List.length_map _
  have hbeta : (if (if beta > rows then rows else beta) > columns then columns else if beta > rows then rows else beta) =
      min beta (min rows columns) := by
    split <;> split at * <;> omega
  generalize hB : min beta (min rows columns) = B at *
  have hB0 : 0 < B := by omega
  obtain ⟨A1, s1, a1, p1, m1⟩ := csr_step (asElements es) rows columns (by omega) (by omega) (by omega) (by rw [ents_asElements]; exact hin)
  rw [ents_asElements] at p1 m1
  have l1 : s1.length = es.length := by have := p1.perm.length_eq; unfold ents at this; rw [List.length_map] at this; exact this
  obtain ⟨A2, s2, a2, p2, m2⟩ := csr2_step s1 rows columns (by omega) (by omega) (p1.inRange hin)
  rw [spmvExact_samePlaces p1] at m2
  have q2 := p2.trans p1
  have l2 := length_of_samePlaces p2
  obtain ⟨A3, s3, a3, p3, m3⟩ := cswr_step s2 rows columns 32 (by decide) (by decide) (by omega) (by omega) (q2.inRange hin)
  rw [spmvExact_samePlaces q2] at m3
  have q3 := p3.trans q2
  have l3 := length_of_samePlaces p3
  have ne3 : s3 ≠ [] := by
    rw [← List.length_pos_iff, l3, l2, l1]; exact List.length_pos_iff.2 hne
  obtain ⟨A4, s4, a4, e4, m4⟩ := matRight_csbr s3 rows columns B m.workers hB0 hw ne3 (by omega) hgrid (by omega) hc (q3.inRange hin)
  have p4 : SamePlaces (ents s4) (ents s3) := by rw [e4]; exact samePlaces_prepared _ _ _ _ s3
  rw [spmvExact_samePlaces q3] at m4
  have q4 := p4.trans q3
  have l4 := length_of_samePlaces p4
  have ne4 : s4 ≠ [] := by
    rw [← List.length_pos_iff, l4]; exact List.length_pos_iff.2 ne3
  obtain ⟨A5, s5, a5, e5, m5⟩ := matRight_csbr2 s4 rows columns B hB0 ne4 (by omega) hgrid (by omega) hc (q4.inRange hin)
  have p5 : SamePlaces (ents s5) (ents s4) := by rw [e5]; exact samePlaces_prepared _ _ _ _ s4
  rw [spmvExact_samePlaces q4] at m5
  refine ⟨s5, p5.trans q4, ?_⟩
  unfold resultMain
  simp only
  rw [hread, ok_bind]
  simp only
  rw [hpick, ok_bind]
  simp only [hbeta]
  rw [a1, ok_bind]
  simp only
  rw [m1.hmul, ok_bind, a2, ok_bind]
  simp only
  rw [resultSection_report env _ rows columns _ _ m2 _ _ _ (by omega), ok_bind, a3, ok_bind]
  simp only
  rw [resultSection_report env _ rows columns _ _ m3 _ _ _ (by omega), ok_bind, a4, ok_bind]
  simp only
  rw [resultSection_report env _ rows columns _ _ m4 _ _ _ (by omega), ok_bind, a5, ok_bind]
  simp only
  rw [resultSection_report env _ rows columns _ _ m5 _ _ _ (by omega), ok_bind]
  rfl

theorem bind_ok_iff {α β : Type} {m : C α} {f : α → C β} {b : β} : m >>= f = .ok b ↔ ∃ a, m = .ok a ∧ f a = .ok b := by
  constructor
  · intro h
    cases m with
    | error e => cases h
    | ok a => exact ⟨a, rfl, h⟩
  · rintro ⟨a, h1, h2⟩
    rw [h1, ok_bind, h2]

end Gsb
