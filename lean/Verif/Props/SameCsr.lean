import Verif.Props.Outside2
import Verif.Props.Schedule
/-
C90: CSR2 does what CSR does.
-/
namespace Gsb
variable {ε T : Type} [NZ ε T]

/-- The CSR2 matrix with the arrays of a CSR matrix: the columns and the values, interleaved, and the row pointers. -/
def Csr.interleaved (A : Csr T) : Csr2 T := ⟨A.colInd, A.val, A.rowPtr, A.rows, A.columns⟩

/-- `c`, and `f` of what it returns; a failure stays the failure it is. -/
def C.then {α β : Type} (c : C α) (f : α → β) : C β :=
  match c with
  | .ok a => .ok (f a)
  | .error e => .error e

section
variable {σ τ : Type}

theorem forLoop_bridge {f : Nat → σ → C σ} {g : Nat → τ → C τ} (φ : τ → σ) {lo hi : Nat} (s : τ)
    (h : ∀ i t, lo ≤ i → i < hi → f i (φ t) = C.then (g i t) φ) :
    forLoop lo hi (φ s) f = C.then (forLoop lo hi s g) φ := by
  induction hd : hi - lo generalizing lo s with
  | zero =>
    rw [forLoop_empty (by omega), forLoop_empty (by omega)]
    rfl
  | succ n ih =>
    rw [forLoop_step (by omega), forLoop_step (by omega), h lo s (Nat.le_refl _) (by omega)]
    cases g lo s with
    | error e => rfl
    | ok t => exact ih t (fun i t h1 h2 => h i t (by omega) h2) (by omega)

theorem forLoop_congr_all {f g : Nat → σ → C σ} {lo hi : Nat} (s : σ) (h : ∀ i t, lo ≤ i → i < hi → f i t = g i t) :
    forLoop lo hi s f = forLoop lo hi s g := by
  have := forLoop_bridge (f := f) (g := g) (lo := lo) (hi := hi) (fun t => t) s (fun i t h1 h2 => by
    rw [h i t h1 h2]
    cases g i t <;> rfl)
  rw [this]
  cases forLoop lo hi s g <;> rfl

end

section
variable [Add T] [Mul T]

/-- `z` with `w` in place `i`. -/
def setAt (z : Nat → T) (i : Nat) (w : T) : Nat → T := fun k => if k = i then w else z k

omit [Add T] [Mul T] in
theorem setAt_self (z : Nat → T) (i : Nat) : setAt z i (z i) = z := by
  funext k
  unfold setAt
  split
  · next h => rw [h]
  · rfl

omit [Add T] [Mul T] in
theorem put_setAt {ny i : Nat} (z : Nat → T) (w w' : T) (h : i < ny) :
    (Buf.full ny (setAt z i w)).put i w' = .ok (Buf.full ny (setAt z i w')) := by
  rw [Buf.put_full h]
  congr 2
  funext k
  unfold setAt
  by_cases e : k = i <;> simp [e]

/-- The sum kept in `y[i]` and the sum kept in a local variable. -/
theorem inner_bridge (ci : Buf Nat) (v : Buf T) (rp : Buf Nat) (rows columns : Nat) (x : Buf T) {ny i : Nat} (hi : i < ny)
    (a b : Nat) (z : Nat → T) (w : T) :
    forLoop a b (Buf.full ny (setAt z i w)) (csrInner ci v 0 x 0 (0 + i)) =
      C.then (forLoop a b w (csr2Inner ⟨ci, v, rp, rows, columns⟩ x)) (fun r => Buf.full ny (setAt z i r)) := by
  refine forLoop_bridge (fun r => Buf.full ny (setAt z i r)) w (fun j t _ _ => ?_)
  unfold csrInner csr2Inner macc
  simp only [Nat.zero_add]
  cases v.get j with
  | error e => rfl
  | ok vj =>
    rw [ok_bind, ok_bind]
    cases ci.get j with
    | error e => rfl
    | ok c =>
      rw [ok_bind, ok_bind]
      cases x.get c with
      | error e => rfl
      | ok xc =>
        rw [ok_bind, ok_bind, Buf.get_full hi, ok_bind, put_setAt z t _ hi]
        simp [setAt, C.then]

theorem row_bridge (A : Csr T) (x : Buf T) {ny i : Nat} (hi : i < ny) (z : Nat → T) :
    spmvCsrRow A.rowPtr A.colInd A.val 0 x 0 0 i (Buf.full ny z) = A.interleaved.spmvRow x i (Buf.full ny z) := by
  unfold spmvCsrRow Csr2.spmvRow
  simp only [Csr.interleaved]
  cases A.rowPtr.get i with
  | error e => rfl
  | ok a =>
    rw [ok_bind, ok_bind]
    cases A.rowPtr.get (i + 1) with
    | error e => rfl
    | ok b =>
      rw [ok_bind, ok_bind, Buf.get_full hi, ok_bind]
      have h := inner_bridge A.colInd A.val A.rowPtr A.rows A.columns x hi a b z (z i)
      rw [setAt_self] at h
      rw [h]
      cases forLoop a b (z i) (csr2Inner ⟨A.colInd, A.val, A.rowPtr, A.rows, A.columns⟩ x) with
      | error e => rfl
      | ok r =>
        rw [ok_bind]
        have := put_setAt z (z i) r hi
        rw [setAt_self] at this
        rw [this]
        rfl

/-- A row leaves `y` full. -/
theorem row_full (A : Csr2 T) (x : Buf T) {ny i : Nat} (hi : i < ny) (z : Nat → T) :
    (∃ e, A.spmvRow x i (Buf.full ny z) = .error e) ∨ ∃ z', A.spmvRow x i (Buf.full ny z) = .ok (Buf.full ny z') := by
  unfold Csr2.spmvRow
  cases A.rowPtr.get i with
  | error e => exact .inl ⟨e, rfl⟩
  | ok a =>
    rw [ok_bind]
    cases A.rowPtr.get (i + 1) with
    | error e => exact .inl ⟨e, rfl⟩
    | ok b =>
      rw [ok_bind, Buf.get_full hi, ok_bind]
      cases forLoop a b (z i) (csr2Inner A x) with
      | error e => exact .inl ⟨e, rfl⟩
      | ok r =>
        rw [ok_bind, Buf.put_full hi]
        exact .inr ⟨_, rfl⟩

/-- **C90**, the product: on any arrays whatever — row pointers that decrease, columns outside `x`, arrays too short — both products of
CSR and those of CSR2 do the same: the same `y`, or the same failure. -/
theorem C90_product (A : Csr T) (x : Buf T) (ny : Nat) (hny : A.rows ≤ ny) (y : Nat → T) :
    A.interleaved.spmv x (Buf.full ny y) = A.spmv x 0 (Buf.full ny y) 0 ∧
      A.interleaved.spmvSerial x (Buf.full ny y) = A.spmvSerial x 0 (Buf.full ny y) 0 := by
  refine ⟨?_, ?_⟩
  · unfold Csr2.spmv Csr.spmv spmvCsr
    have go : ∀ n lo z, lo + n ≤ ny →
        loopN (A.interleaved.spmvRow x) n lo (Buf.full ny z) =
          loopN (spmvCsrRow A.rowPtr A.colInd A.val 0 x 0 0) n lo (Buf.full ny z) := by
      intro n
      induction n with
      | zero => intro lo z _; rfl
      | succ n ih =>
        intro lo z h
        unfold loopN
        rw [row_bridge A x (by omega) z]
        rcases row_full A.interleaved x (show lo < ny by omega) z with ⟨e, h1⟩ | ⟨z', h1⟩
        · rw [h1]; rfl
        · rw [h1, ok_bind, ok_bind]; exact ih (lo + 1) z' (by omega)
    exact go _ 0 y (by show 0 + (A.rows - 0) ≤ ny; omega)
  · unfold Csr2.spmvSerial Csr.spmvSerial spmvCsrSerial
    have go : ∀ n lo a z, lo + n ≤ ny →
        loopN (fun i (s : Nat × Buf T) => do
            let rowEnd ← A.interleaved.rowPtr.get (i + 1)
            let yi ← s.2.get i
            let res ← forLoop s.1 rowEnd yi (csr2Inner A.interleaved x)
            let y ← s.2.put i res
            .ok (rowEnd, y)) n lo (a, Buf.full ny z) =
          loopN (fun i (s : Nat × Buf T) => do
            let rowEnd ← A.rowPtr.get (i + 1)
            let y ← forLoop s.1 rowEnd s.2 (csrInner A.colInd A.val 0 x 0 (0 + i))
            .ok (rowEnd, y)) n lo (a, Buf.full ny z) := by
      intro n
      induction n with
      | zero => intro lo a z _; rfl
      | succ n ih =>
        intro lo a z h
        have hi : lo < ny := by omega
        unfold loopN
        simp only [Csr.interleaved]
        cases A.rowPtr.get (lo + 1) with
        | error e => rfl
        | ok b =>
          have h := inner_bridge A.colInd A.val A.rowPtr A.rows A.columns x hi a b z (z lo)
          rw [setAt_self] at h
          rw [ok_bind, ok_bind, Buf.get_full hi, ok_bind, h]
          cases forLoop a b (z lo) (csr2Inner ⟨A.colInd, A.val, A.rowPtr, A.rows, A.columns⟩ x) with
          | error e => rfl
          | ok r =>
            have hp := put_setAt z (z lo) r hi
            rw [setAt_self] at hp
            rw [ok_bind, hp]
            exact ih (lo + 1) b (setAt z lo r) (by omega)
    simp only [Csr.interleaved]
    cases A.rowPtr.get 0 with
    | error e => rfl
    | ok a =>
      rw [ok_bind, ok_bind]
      have := go A.rows 0 a y (by omega)
      unfold forLoop
      rw [Nat.sub_zero]
      exact congrArg (fun c => c >>= fun s : Nat × Buf T => (.ok s.2 : C (Buf T))) this

/-- **C90**, serial and parallel: on any arrays whatever the rows in order do what the serial product does. -/
theorem C90_parallel_serial (A : Csr T) (x : Buf T) (xo : Nat) (y : Buf T) (yo : Nat) (h : 0 < A.rows) :
    A.spmv x xo y yo = A.spmvSerial x xo y yo := by
  unfold Csr.spmv Csr.spmvSerial spmvCsr spmvCsrSerial forLoop
  rw [Nat.sub_zero]
  obtain ⟨n, hn⟩ : ∃ n, A.rows = n + 1 := ⟨A.rows - 1, by omega⟩
  rw [hn]
  have go : ∀ n lo a y, A.rowPtr.get lo = .ok a →
      loopN (spmvCsrRow A.rowPtr A.colInd A.val 0 x xo yo) n lo y =
        (do let s ← loopN (fun i (s : Nat × Buf T) => do
              let rowEnd ← A.rowPtr.get (i + 1)
              let y ← loopN (csrInner A.colInd A.val 0 x xo (yo + i)) (rowEnd - s.1) s.1 s.2
              .ok (rowEnd, y)) n lo (a, y)
            .ok s.2) := by
    intro n
    induction n with
    | zero => intro lo a y _; rfl
    | succ n ih =>
      intro lo a y ha
      unfold loopN
      conv_lhs => unfold spmvCsrRow forLoop
      rw [ha, ok_bind]
      simp only
      cases hb : A.rowPtr.get (lo + 1) with
      | error e => rfl
      | ok b =>
        rw [ok_bind, ok_bind]
        cases loopN (csrInner A.colInd A.val 0 x xo (yo + lo)) (b - a) a y with
        | error e => rfl
        | ok y' => exact ih (lo + 1) b y' hb
  cases ha : A.rowPtr.get 0 with
  | error e =>
    rw [error_bind]
    unfold loopN spmvCsrRow
    rw [ha, error_bind, error_bind]
  | ok a => exact go (n + 1) 0 a y ha

theorem spmv_full (A : Csr2 T) (x : Buf T) (ny : Nat) (y : Nat → T) (r : Buf T)
    (hr : A.spmv x (Buf.full ny y) = .ok r) : ∃ y', r = Buf.full ny y' :=
  forLoop_end (fun r : Buf T => ∃ y', r = Buf.full ny y') (fun i s s' hs hf => by
    obtain ⟨z, rfl⟩ := hs
    have hi : i < ny := by
      unfold Csr2.spmvRow at hf
      obtain ⟨a, -, hf⟩ := bind_ok hf
      obtain ⟨b, -, hf⟩ := bind_ok hf
      obtain ⟨t, h3, -⟩ := bind_ok hf
      exact Buf.get_lt h3
    rcases row_full A x hi z with ⟨e, h3⟩ | ⟨z', h3⟩
    · rw [h3] at hf; cases hf
    · rw [h3] at hf; cases hf; exact ⟨z', rfl⟩) ⟨y, rfl⟩ hr

/-- **C90**, schedules: on any arrays for which the serial product of CSR comes to an end, the parallel products of CSR and CSR2 have no
race and come to an end, with the same `y`, on every schedule. -/
theorem C90_schedules (A : Csr T) (x : Buf T) (y : Nat → T) (h : 0 < A.rows) (r : Buf T)
    (hs : A.spmvSerial x 0 (Buf.full A.rows y) 0 = .ok r) :
    ∃ y', r = Buf.full A.rows y' ∧
      EverySchedule (fun Y => A.spmvP x 0 Y 0) A.rows y y' ∧ EverySchedule (fun Y => A.interleaved.spmvP x Y) A.rows y y' := by
  have h1 := (C90_parallel_serial A x 0 (Buf.full A.rows y) 0 h).trans hs
  have h2 := (C90_product A x A.rows (Nat.le_refl _) y).1.trans h1
  obtain ⟨y', rfl⟩ := spmv_full A.interleaved x A.rows y r h2
  exact ⟨y', rfl, C16_csr_kernel A x A.rows y y' h1, C16_csr2_kernel A.interleaved x A.rows y y' h2⟩

end

/-- **C90**, the conversion: for any entries and any dimensions, converting to CSR2 makes the same arrays as converting to CSR, and
leaves the entries in the same order, or fails in the same way. -/
theorem C90_convert (M rows columns : Nat) (es : List ε) (hcol : ∀ e ∈ ents es, e.col < M) (sorted : Bool) :
    (cooToCsr2 M es rows columns sorted : C (Csr2 T × List ε)) =
      C.then (cooToCsr M es rows columns sorted) (fun r => (r.1.interleaved, r.2)) := by
  unfold cooToCsr2 cooToCsr csrBuild
  simp only
  have hcol' : ∀ e ∈ (if sorted then es else sortTriplets es), (NZ.toEnt e).col < M := by
    intro e he
    refine hcol _ (List.mem_map_of_mem ?_)
    split at he
    · exact he
    · exact mem_sortTriplets.1 he
  generalize (if sorted then es else sortTriplets es) = es' at *
  rw [forLoop_congr_all (g := csrFillStep M M es') _ (fun i t _ hi => by
    unfold csrFillStep
    rw [rd_ok hi, ok_bind, ok_bind, Nat.mod_eq_of_lt (hcol' _ (List.getElem_mem hi))])]
  cases forLoop 0 es'.length ((Buf.uninit es'.length : Buf Nat), (Buf.uninit es'.length : Buf T), Buf.filled (addM M rows 1) 0)
      (csrFillStep M M es') with
  | error e => rfl
  | ok s =>
    rw [ok_bind, ok_bind]
    cases prefixSum M s.2.2 rows with
    | error e => rfl
    | ok rp =>
      rw [ok_bind, ok_bind]
      cases rp.get rows with
      | error e => rfl
      | ok t =>
        rw [ok_bind, ok_bind]
        cases cassert (t == es'.length) with
        | error e => rfl
        | ok u => rfl

/-- **C85**, the gap in CSR2: the same as in CSR. -/
theorem C85_csr2_last_row [Add T] [Mul T] (M rows columns : Nat) (es : List ε) (hnnz : es.length + 1 < M) (hrows : rows + 1 < M)
    (hcols : columns < M) (hidx : ∀ e ∈ ents es, (e.row < rows ∨ e.row = M - 1) ∧ e.col < columns) (x y : Nat → T) :
    ∃ A : Csr2 T, cooToCsr2 M es rows columns = .ok (A, sortTriplets es) ∧
      A.spmv (Buf.full columns x) (Buf.full rows y) =
        .ok (Buf.full rows (spmvInOrder (pulledUp ((ents es).countP (fun e => e.row == M - 1)) (ents (sortTriplets es))) x y)) ∧
      A.spmvSerial (Buf.full columns x) (Buf.full rows y) =
        .ok (Buf.full rows (spmvInOrder (pulledUp ((ents es).countP (fun e => e.row == M - 1)) (ents (sortTriplets es))) x y)) := by
  obtain ⟨A, h1, h2, h3⟩ := C85_csr_last_row M rows columns es hnnz hrows hcols hidx x y
  have hr : A.rows = rows := by
    have h := h1
    unfold cooToCsr csrBuild at h
    obtain ⟨B, h4, h⟩ := bind_ok h
    cases h
    obtain ⟨s, -, h4⟩ := bind_ok h4
    obtain ⟨rp, -, h4⟩ := bind_ok h4
    obtain ⟨t, -, h4⟩ := bind_ok h4
    obtain ⟨u, -, h4⟩ := bind_ok h4
    cases h4
    rfl
  have hp := C90_product A (Buf.full columns x) rows (Nat.le_of_eq hr) y
  refine ⟨A.interleaved, ?_, hp.1.trans h2, hp.2.trans h3⟩
  rw [C90_convert M rows columns es (fun e he => by have := (hidx e he).2; omega) false, h1]
  rfl

end Gsb
