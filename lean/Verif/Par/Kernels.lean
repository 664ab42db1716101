import Verif.Par.Seq
import Verif.Model.ParKernels
/-
The kernels as programs: they simulate the serial models, and concurrent iterations have disjoint footprints.
-/
namespace Gsb
variable {T : Type}

theorem Good.acc (b k lo hi : Nat) (body : Nat → T → C T) : Good (accP b k lo hi body) :=
  Good.load (fun _ => Good.read (fun _ _ => Good.store (Good.ret 0)))

theorem Foot.acc (b k lo hi : Nat) (body : Nat → T → C T) : Foot (fun l => l = (b, k)) (accP b k lo hi body) :=
  ⟨rfl, fun _ => Foot.read (fun _ _ => ⟨rfl, trivial⟩)⟩

theorem Sim.acc (b o k lo hi : Nat) (body : Nat → T → C T) :
    Sim b o (accP b (o + k) lo hi body) (fun y => do
      let t ← y.get k
      let t ← forLoop lo hi t body
      y.put k t) := Sim.update (h := fun t => forLoop lo hi t body) 0

section
variable [Add T] [Mul T]

theorem Good.macc (b k : Nat) (v : T) (x : Buf T) (c : Nat) : Good (maccP b k v x c) :=
  Good.read (fun _ _ => Good.load (fun _ => Good.store (Good.ret 0)))

theorem Foot.macc (b k : Nat) (v : T) (x : Buf T) (c : Nat) : Foot (fun l => l = (b, k)) (maccP b k v x c) :=
  Foot.read (fun _ _ => ⟨rfl, fun _ => ⟨rfl, trivial⟩⟩)

theorem Sim.macc (b o k : Nat) (v : T) (x : Buf T) (c : Nat) :
    Sim b o (maccP b (o + k) v x c) (fun y => macc y k v x c) :=
  Sim.read (fun xc _ => Sim.update (h := fun a => .ok (a + v * xc)) 0)

theorem Good.csrInner (ci : Buf Nat) (v : Buf T) (base : Nat) (x : Buf T) (xo b k j : Nat) :
    Good (csrInnerP ci v base x xo b k j) :=
  Good.read (fun _ _ => Good.read (fun _ _ => Good.macc _ _ _ _ _))

theorem Foot.csrInner (ci : Buf Nat) (v : Buf T) (base : Nat) (x : Buf T) (xo b k j : Nat) :
    Foot (fun l => l = (b, k)) (csrInnerP ci v base x xo b k j) :=
  Foot.read (fun _ _ => Foot.read (fun _ _ => Foot.macc _ _ _ _ _))

theorem Sim.csrInner (ci : Buf Nat) (v : Buf T) (base : Nat) (x : Buf T) (xo b o k j : Nat) :
    Sim b o (csrInnerP ci v base x xo b (o + k) j) (csrInner ci v base x xo k j) :=
  Sim.read (fun _ _ => Sim.read (fun _ _ => Sim.macc _ _ _ _ _ _))

theorem Good.csrRow (rp ci : Buf Nat) (v : Buf T) (base : Nat) (x : Buf T) (xo b yo i : Nat) :
    Good (csrRowP rp ci v base x xo b yo i) :=
  Good.read (fun _ _ => Good.read (fun _ _ => Good.seqFor (fun _ _ _ => Good.csrInner _ _ _ _ _ _ _ _)))

theorem Foot.csrRow (rp ci : Buf Nat) (v : Buf T) (base : Nat) (x : Buf T) (xo b yo i : Nat) :
    Foot (fun l => l = (b, yo + i)) (csrRowP rp ci v base x xo b yo i) :=
  Foot.read (fun _ _ => Foot.read (fun _ _ => Foot.seqFor (fun _ _ _ => Foot.csrInner _ _ _ _ _ _ _ _)))

theorem Sim.csrRow (rp ci : Buf Nat) (v : Buf T) (base : Nat) (x : Buf T) (xo b o yo i : Nat) :
    Sim b o (csrRowP rp ci v base x xo b (o + yo) i) (spmvCsrRow rp ci v base x xo yo i) :=
  Sim.read (fun _ _ => Sim.read (fun _ _ => Sim.seqFor (fun _ _ _ => by
    rw [Nat.add_assoc]; exact Sim.csrInner _ _ _ _ _ _ _ _ _)))

/-- Cells of one row each. -/
theorem rows_disj (b yo lo hi : Nat) : ∀ j k, lo ≤ j → j < k → k < hi → ∀ l : Loc, l = (b, yo + j) → ¬ l = (b, yo + k) := by
  rintro j k _ h _ l rfl h'
  rw [Prod.mk.injEq] at h'
  omega

theorem Good.csr (rp ci : Buf Nat) (v : Buf T) (base rows : Nat) (x : Buf T) (xo b yo : Nat) :
    Good (csrP rp ci v base rows x xo b yo) :=
  Good.parFor (F := fun i l => l = (b, yo + i)) (fun _ _ _ => Foot.csrRow _ _ _ _ _ _ _ _ _)
    (fun _ _ _ => Good.csrRow _ _ _ _ _ _ _ _ _) (rows_disj b yo 0 rows)

theorem Sim.csr (rp ci : Buf Nat) (v : Buf T) (base rows : Nat) (x : Buf T) (xo b o yo : Nat) :
    Sim b o (csrP rp ci v base rows x xo b (o + yo)) (fun y => spmvCsr rp ci v base rows x xo y yo) :=
  Sim.parFor (fun _ _ _ => Sim.csrRow _ _ _ _ _ _ _ _ _ _)

theorem Foot.csr (rp ci : Buf Nat) (v : Buf T) (base rows : Nat) (x : Buf T) (xo b yo : Nat) :
    Foot (fun l => l.1 = b ∧ yo ≤ l.2 ∧ l.2 < yo + rows) (csrP rp ci v base rows x xo b yo) :=
  Foot.parFor (fun j _ h => (Foot.csrRow _ _ _ _ _ _ _ _ _).mono (by
    rintro l rfl; exact ⟨rfl, Nat.le_add_right _ _, Nat.add_lt_add_left h _⟩))

/-! ### Serial CSR -/

theorem Good.csrSerialRows (rp ci : Buf Nat) (v : Buf T) (base : Nat) (x : Buf T) (xo b yo : Nat) (n i s : Nat) :
    Good (csrSerialRowsP rp ci v base x xo b yo n i s) := by
  induction n generalizing i s with
  | zero => exact Good.ret 0
  | succ n ih =>
    exact Good.read (fun _ _ => (Good.seqFor (fun _ _ _ => Good.csrInner _ _ _ _ _ _ _ _)).seq (fun _ => ih _ _))

theorem Foot.csrSerialRows (rp ci : Buf Nat) (v : Buf T) (base : Nat) (x : Buf T) (xo b yo : Nat) (n i s : Nat) :
    Foot (fun l => l.1 = b ∧ yo ≤ l.2 ∧ l.2 < yo + (i + n)) (csrSerialRowsP rp ci v base x xo b yo n i s) := by
  induction n generalizing i s with
  | zero => trivial
  | succ n ih =>
    refine Foot.read (fun _ _ => Foot.seq ?_ (fun _ => (ih _ _).mono (by intro l h; omega)))
    exact Foot.seqFor (fun _ _ _ => (Foot.csrInner _ _ _ _ _ _ _ _).mono (by
      rintro l rfl; exact ⟨rfl, Nat.le_add_right _ _, Nat.add_lt_add_left (by omega) _⟩))

theorem Sim.csrSerialRows (rp ci : Buf Nat) (v : Buf T) (base : Nat) (x : Buf T) (xo b o yo : Nat) (n i s : Nat) :
    Sim b o (csrSerialRowsP rp ci v base x xo b (o + yo) n i s) (fun y => do
      let s ← loopN (fun i (s : Nat × Buf T) => do
        let rowEnd ← rp.get (i + 1)
        let y ← forLoop s.1 rowEnd s.2 (Gsb.csrInner ci v base x xo (yo + i))
        .ok (rowEnd, y)) n i (s, y)
      .ok s.2) := by
  induction n generalizing i s with
  | zero => exact Sim.ret 0
  | succ n ih =>
    refine Sim.congr (Sim.read (c := rp.get (i + 1)) (g := fun e y => forLoop s e y (Gsb.csrInner ci v base x xo (yo + i)) >>=
      fun y => do
        let s ← loopN (fun i (s : Nat × Buf T) => do
          let rowEnd ← rp.get (i + 1)
          let y ← forLoop s.1 rowEnd s.2 (Gsb.csrInner ci v base x xo (yo + i))
          .ok (rowEnd, y)) n (i + 1) (e, y)
        .ok s.2) (fun e _ => Sim.seq (Sim.seqFor (fun _ _ _ => ?_)) (ih _ _))) ?_
    · rw [Nat.add_assoc]; exact Sim.csrInner _ _ _ _ _ _ _ _ _
    · intro y
      conv_lhs => unfold loopN
      cases rp.get (i + 1) with
      | error e => rfl
      | ok e =>
        simp only [ok_bind]
        cases forLoop s e y (Gsb.csrInner ci v base x xo (yo + i)) with
        | error e => rfl
        | ok y => rfl

theorem Good.csrSerial (rp ci : Buf Nat) (v : Buf T) (base rows : Nat) (x : Buf T) (xo b yo : Nat) :
    Good (csrSerialP rp ci v base rows x xo b yo) := Good.read (fun _ _ => Good.csrSerialRows _ _ _ _ _ _ _ _ _ _ _)

theorem Foot.csrSerial (rp ci : Buf Nat) (v : Buf T) (base rows : Nat) (x : Buf T) (xo b yo : Nat) :
    Foot (fun l => l.1 = b ∧ yo ≤ l.2 ∧ l.2 < yo + rows) (csrSerialP rp ci v base rows x xo b yo) :=
  Foot.read (fun _ _ => (Foot.csrSerialRows _ _ _ _ _ _ _ _ _ _ _).mono (by intro l h; omega))

theorem Sim.csrSerial (rp ci : Buf Nat) (v : Buf T) (base rows : Nat) (x : Buf T) (xo b o yo : Nat) :
    Sim b o (csrSerialP rp ci v base rows x xo b (o + yo)) (fun y => spmvCsrSerial rp ci v base rows x xo y yo) :=
  Sim.congr (Sim.read (fun _ _ => Sim.csrSerialRows _ _ _ _ _ _ _ _ _ _ _ _)) (fun _ => rfl)

/-! ### CSR2, dense, compressed-row CSR -/

theorem Good.csr2 (A : Csr2 T) (x : Buf T) (b : Nat) : Good (A.spmvP x b) :=
  Good.parFor (F := fun i l => l = (b, i)) (fun _ _ _ => Foot.read (fun _ _ => Foot.read (fun _ _ => Foot.acc _ _ _ _ _)))
    (fun _ _ _ => Good.read (fun _ _ => Good.read (fun _ _ => Good.acc _ _ _ _ _)))
    (by simpa using rows_disj b 0 0 A.rows)

theorem Sim.csr2 (A : Csr2 T) (x : Buf T) (b : Nat) : Sim b 0 (A.spmvP x b) (fun y => A.spmv x y) := by
  refine Sim.parFor (fun i _ _ => Sim.read (fun _ _ => Sim.read (fun _ _ => ?_)))
  have := Sim.acc (T := T) b 0 i
  simp only [Nat.zero_add] at this
  exact this _ _ _

theorem Good.dense (M : Nat) (A : Dense T) (x : Buf T) (xo b yo : Nat) : Good (A.spmvP M x xo b yo) :=
  Good.parFor (F := fun i l => l = (b, yo + i)) (fun _ _ _ => Foot.acc _ _ _ _ _) (fun _ _ _ => Good.acc _ _ _ _ _)
    (rows_disj b yo 0 A.rows)

theorem Sim.denseRow (M : Nat) (val : Buf T) (columns : Nat) (x : Buf T) (xo b o yo i : Nat) :
    Sim b o (denseRowP M val columns x xo b (o + yo) i) (spmvDenseRow M val columns x xo yo i) := by
  unfold denseRowP
  rw [Nat.add_assoc]
  exact Sim.acc b o (yo + i) 0 columns _

theorem Sim.dense (M : Nat) (A : Dense T) (x : Buf T) (xo b o yo : Nat) :
    Sim b o (A.spmvP M x xo b (o + yo)) (fun y => A.spmv M x xo y yo) :=
  Sim.parFor (fun _ _ _ => Sim.denseRow _ _ _ _ _ _ _ _ _)

theorem Good.denseSerial (M : Nat) (A : Dense T) (x : Buf T) (xo b yo : Nat) : Good (A.spmvSerialP M x xo b yo) :=
  Good.seqFor (fun _ _ _ => Good.acc _ _ _ _ _)

theorem Sim.denseSerial (M : Nat) (A : Dense T) (x : Buf T) (xo b o yo : Nat) :
    Sim b o (A.spmvSerialP M x xo b (o + yo)) (fun y => A.spmv M x xo y yo) :=
  Sim.seqFor (fun _ _ _ => Sim.denseRow _ _ _ _ _ _ _ _ _)

/-- The compressed-row kernel needs its row list to have no repetition. -/
theorem Good.crcsr (A : CrCsr T) (x : Buf T) (b : Nat)
    (hd : ∀ i j r, i < j → j < A.nnzRowsNum → A.nnzRows.get i = .ok r → A.nnzRows.get j ≠ .ok r) : Good (A.spmvP x b) :=
  Good.parFor (F := fun i l => ∃ r, A.nnzRows.get i = .ok r ∧ l = (b, r))
    (fun _ _ _ => Foot.read (fun _ _ => Foot.read (fun _ _ => Foot.read (fun r hr =>
      (Foot.acc _ _ _ _ _).mono (by rintro l rfl; exact ⟨r, hr, rfl⟩)))))
    (fun _ _ _ => Good.read (fun _ _ => Good.read (fun _ _ => Good.read (fun _ _ => Good.acc _ _ _ _ _))))
    (by
      rintro i j _ h1 h2 l ⟨r, h3, rfl⟩ ⟨r', h4, h5⟩
      rw [Prod.mk.injEq] at h5
      obtain ⟨-, rfl⟩ := h5
      exact hd i j r h1 h2 h3 h4)

theorem Sim.crcsr (A : CrCsr T) (x : Buf T) (b : Nat) : Sim b 0 (A.spmvP x b) (fun y => A.spmv x y) := by
  refine Sim.parFor (fun i _ _ => Sim.read (fun _ _ => Sim.read (fun _ _ => Sim.read (fun r _ => ?_))))
  have := Sim.acc (T := T) b 0 r
  simp only [Nat.zero_add] at this
  exact this _ _ _

/-! ### COO, CSWR -/

theorem Good.coo (v : Buf T) (ri ci : Buf Nat) (base nnz : Nat) (x : Buf T) (xo b yo : Nat) :
    Good (cooP v ri ci base nnz x xo b yo) :=
  Good.seqFor (fun _ _ _ => Good.read (fun _ _ => Good.read (fun _ _ => Good.read (fun _ _ => Good.macc _ _ _ _ _))))

theorem Sim.coo (v : Buf T) (ri ci : Buf Nat) (base nnz : Nat) (x : Buf T) (xo b o yo : Nat) :
    Sim b o (cooP v ri ci base nnz x xo b (o + yo)) (fun y => spmvCoo v ri ci base nnz x xo y yo) :=
  Sim.seqFor (fun _ _ _ => Sim.read (fun _ _ => Sim.read (fun _ _ => Sim.read (fun _ _ => by
    rw [Nat.add_assoc]; exact Sim.macc _ _ _ _ _ _))))

/-- A COO kernel stays within the rows its indices name. -/
theorem Foot.coo (v : Buf T) (ri ci : Buf Nat) (base nnz : Nat) (x : Buf T) (xo b yo n : Nat)
    (h : ∀ i r, i < nnz → ri.get (base + i) = .ok r → r < n) :
    Foot (fun l => l.1 = b ∧ yo ≤ l.2 ∧ l.2 < yo + n) (cooP v ri ci base nnz x xo b yo) :=
  Foot.seqFor (fun i _ hi => Foot.read (fun r hr => Foot.read (fun _ _ => Foot.read (fun _ _ =>
    (Foot.macc _ _ _ _ _).mono (by
      rintro l rfl
      have := h i r hi hr
      exact ⟨rfl, by simp, by simpa using this⟩)))))

theorem Good.cswr (M : Nat) (A : Cswr T) (x : Buf T) (b : Nat) (hw : A.width * A.nwrows < M + A.width)
    (h : ∀ k r, A.row.get k = .ok r → r < A.width) : Good (A.spmvP M x b) := by
  refine Good.parFor (F := fun i l => l.1 = b ∧ A.width * i ≤ l.2 ∧ l.2 < A.width * i + A.width)
    (fun i _ hi => Foot.read (fun _ _ => Foot.read (fun _ _ => ?_)))
    (fun _ _ _ => Good.read (fun _ _ => Good.read (fun _ _ => Good.coo _ _ _ _ _ _ _ _ _))) ?_
  · have : A.width * i + A.width ≤ A.width * A.nwrows := by
      rw [← Nat.mul_succ]; exact Nat.mul_le_mul_left _ hi
    rw [mulM_eq (by omega)]
    exact Foot.coo _ _ _ _ _ _ _ _ _ _ (fun k r _ hr => h _ r hr)
  · intro i j _ h1 _ l h2 h3
    have : A.width * i + A.width ≤ A.width * j := by
      rw [← Nat.mul_succ]; exact Nat.mul_le_mul_left _ h1
    omega

theorem Sim.cswr (M : Nat) (A : Cswr T) (x : Buf T) (b : Nat) : Sim b 0 (A.spmvP M x b) (fun y => A.spmv M x y) := by
  refine Sim.parFor (fun i _ _ => Sim.read (fun _ _ => Sim.read (fun _ _ => ?_)))
  have := Sim.coo A.val A.row A.col
  have h2 := fun b1 n => this b1 n x 0 b 0 (mulM M A.width i)
  simp only [Nat.zero_add] at h2
  exact h2 _ _

end
end Gsb
