import Verif.Par.Blocked
import Verif.Proof.CgbrTop
import Verif.Proof.Csbr3
import Verif.Proof.CrCsr
import Verif.Proof.Cswr
/-
The blocks of each format as programs, and the schedules of the formats with their own loops.
-/
namespace Gsb
variable {T : Type}

section
variable [Add T] [Mul T]

omit [Add T] [Mul T] in
theorem Foot.true_acc (b k lo hi : Nat) (body : Nat → T → C T) : Foot (fun _ => True) (accP b k lo hi body) :=
  (Foot.acc b k lo hi body).mono (fun _ _ => trivial)

theorem CodeOk.csrP (rp ci : Buf Nat) (v : Buf T) (base rows : Nat) :
    CodeOk (fun x xo y yo => spmvCsr rp ci v base rows x xo y yo) (fun x xo b yo => csrP rp ci v base rows x xo b yo) :=
  fun x xo b o => ⟨⟨_, Foot.csr _ _ _ _ _ _ _ _ _⟩, Good.csr _ _ _ _ _ _ _ _ _, Sim.csr rp ci v base rows x xo b o 0⟩

theorem CodeOk.csr (A : Csr T) : CodeOk A.spmv A.spmvP := CodeOk.csrP _ _ _ _ _

theorem CodeOk.csrSerial (A : Csr T) : CodeOk A.spmvSerial A.spmvSerialP := fun x xo b o =>
  ⟨⟨_, Foot.csrSerial _ _ _ _ _ _ _ _ _⟩, Good.csrSerial _ _ _ _ _ _ _ _ _, Sim.csrSerial A.rowPtr A.colInd A.val 0 A.rows x xo b o 0⟩

theorem CodeOk.coo (A : Coo T) : CodeOk A.spmv A.spmvP := fun x xo b o =>
  ⟨⟨fun _ => True, Foot.seqFor (fun _ _ _ => Foot.read (fun _ _ => Foot.read (fun _ _ => Foot.read (fun _ _ =>
    (Foot.macc _ _ _ _ _).mono (fun _ _ => trivial)))))⟩, Good.coo _ _ _ _ _ _ _ _ _, Sim.coo A.val A.I A.J 0 A.nnz x xo b o 0⟩

theorem CodeOk.dense (M : Nat) (A : Dense T) : CodeOk (A.spmv M) (A.spmvP M) := fun x xo b o =>
  ⟨⟨fun _ => True, Foot.parFor (fun _ _ _ => Foot.true_acc _ _ _ _ _)⟩, Good.dense _ _ _ _ _ _, Sim.dense M A x xo b o 0⟩

theorem CodeOk.matrixBlock (M : Nat) (A : MatrixBlock T) : CodeOk (A.spmv M) (A.spmvP M) := by
  cases A with
  | coo A => exact CodeOk.coo A
  | csr A => exact CodeOk.csr A
  | dense A => exact CodeOk.dense M A

omit [Add T] [Mul T] in
theorem Good.fail (e : Err) : Good (.fail e : Prog T) := by
  intro m r m' h; rw [exec_fail] at h; cases h

omit [Add T] [Mul T] in
theorem CodeOk.read {α : Type} {c : C α} {f : α → Buf T → Nat → Buf T → Nat → C (Buf T)} {code : α → Buf T → Nat → Nat → Nat → Prog T}
    (h : ∀ a, c = .ok a → CodeOk (f a) (code a)) :
    CodeOk (fun x xo y yo => do let a ← c; f a x xo y yo) (fun x xo b yo => Prog.read c fun a => code a x xo b yo) := by
  intro x xo b o
  refine ⟨?_, Good.read (fun a ha => (h a ha x xo b o).2.1), Sim.read (fun a ha => (h a ha x xo b o).2.2)⟩
  cases hc : c with
  | error e => exact ⟨fun _ => True, trivial⟩
  | ok a => exact (h a hc x xo b o).1

theorem CodeFor.csbr (A : Csbr T) : CodeFor A.toBlockMat A.code := fun _ => CodeOk.read (fun _ _ => CodeOk.csrP _ _ _ _ _)

end

theorem CodeFor.gbr {β : Type} (A : Gbr β) (spmv : β → Buf T → Nat → Buf T → Nat → C (Buf T)) (nonzeros : β → C Nat)
    (code : β → Buf T → Nat → Nat → Nat → Prog T) (h : ∀ k blk, A.blocks.get k = .ok blk → CodeOk (spmv blk) (code blk)) :
    CodeFor (A.toBlockMat spmv nonzeros) (A.code code) := fun k => CodeOk.read (fun blk hb => h k blk hb)

theorem CodeOk.factory [Add T] [Mul T] [Zero T] (M S : Nat) (choose : Nat → Nat → Nat → FactoryChoice) (rs cs : Nat)
    (g : List (Element T)) (r : Nat × BlockObj T × List (Element T)) (h : factoryDefault M S choose rs cs g = .ok r) :
    CodeOk r.2.1.spmv r.2.1.code := by
  unfold factoryDefault at h
  split at h
  · cases h1 : mkCoo M S g with
    | error e => rw [h1] at h; cases h
    | ok a => rw [h1, ok_bind] at h; cases h; exact CodeOk.coo _
  · cases h1 : csrBuild M S g rs cs with
    | error e => rw [h1] at h; cases h
    | ok a => rw [h1, ok_bind] at h; cases h; exact CodeOk.csrSerial _
  · cases h1 : csrBuild M S g rs cs with
    | error e => rw [h1] at h; cases h
    | ok a => rw [h1, ok_bind] at h; cases h; exact CodeOk.csr _
  · cases h1 : (mkDense M g rs cs : C (Dense T)) with
    | error e => rw [h1] at h; cases h
    | ok a => rw [h1, ok_bind] at h; cases h; exact CodeOk.dense M _

section
variable [Add T] [Mul T]

theorem Good.csbr2 {M : Nat} (A : Csbr2 T) (fR : Nat → Nat) (hR : ∀ i, i ≤ A.blockrows → rd A.offR i = .ok (fR i))
    (hmono : ∀ i j, i ≤ j → j ≤ A.blockrows → fR i ≤ fR j) (hMr : ∀ i, i ≤ A.blockrows → fR i < M) (hM : A.blockrows < M)
    (x : Buf T) (b : Nat) : Good (A.spmvP M x b) := by
  refine Good.parFor (F := fun i l => l.1 = b ∧ fR i ≤ l.2 ∧ l.2 < fR (i + 1)) (fun i _ hi => ?_) (fun i _ hi => ?_) ?_
  · refine Foot.read (fun yo h1 => Foot.read (fun ye h2 => Foot.read (fun _ _ => Foot.read (fun _ _ => Foot.seqFor (fun _ _ _ =>
      Foot.read (fun _ _ => ?_))))))
    rw [hR i (by omega)] at h1
    rw [addM_eq (by omega), hR (i + 1) (by omega)] at h2
    cases h1; cases h2
    have h3 := hmono i (i + 1) (by omega) (by omega)
    rw [subM_eq (hMr _ (by omega)) h3]
    exact (Foot.csrSerial _ _ _ _ _ _ _ _ _).mono (by intro l h; omega)
  · exact Good.read (fun _ _ => Good.read (fun _ _ => Good.read (fun _ _ => Good.read (fun _ _ => Good.seqFor (fun _ _ _ =>
      Good.read (fun _ _ => Good.csrSerial _ _ _ _ _ _ _ _ _))))))
  · intro i j _ h1 h2 l h3 h4
    have := hmono (i + 1) j (by omega) (by omega)
    omega

theorem Sim.csbr2 {M : Nat} (A : Csbr2 T) (x : Buf T) (b : Nat) : Sim b 0 (A.spmvP M x b) (fun y => A.spmv M x y) := by
  refine Sim.parFor (fun i _ _ => Sim.read (fun yo _ => Sim.read (fun _ _ => Sim.read (fun _ _ => Sim.read (fun _ _ =>
    Sim.seqFor (fun _ _ _ => Sim.read (fun _ _ => ?_)))))))
  have := Sim.csrSerial (T := T) (b := b) (o := 0) (yo := yo)
  simp only [Nat.zero_add] at this
  exact this _ _ _ _ _ _ _

theorem Good.csbr3 {M : Nat} (A : Csbr3 T) (hM : A.blockrows * A.blockSize < M) (hr : ∀ k r, A.rowInd.get k = .ok r → r < A.blockSize)
    (x : Buf T) (b : Nat) : Good (A.spmvP M x b) := by
  refine Good.parFor (F := fun i l => l.1 = b ∧ i * A.blockSize ≤ l.2 ∧ l.2 < i * A.blockSize + A.blockSize) (fun i _ hi => ?_) (fun i _ hi => ?_) ?_
  · refine Foot.read (fun _ _ => Foot.read (fun _ _ => Foot.seqFor (fun _ _ _ =>
      Foot.read (fun _ _ => Foot.read (fun _ _ => Foot.read (fun _ _ => ?_))))))
    have := Nat.mul_le_mul_right A.blockSize (Nat.le_of_lt hi)
    rw [mulM_eq (a := i) (by omega)]
    exact Foot.coo _ _ _ _ _ _ _ _ _ _ (fun _ r _ h => hr _ r h)
  · exact Good.read (fun _ _ => Good.read (fun _ _ => Good.seqFor (fun _ _ _ =>
      Good.read (fun _ _ => Good.read (fun _ _ => Good.read (fun _ _ => Good.coo _ _ _ _ _ _ _ _ _))))))
  · intro i j _ h1 h2 l h3 h4
    have := Nat.mul_le_mul_right A.blockSize (show i + 1 ≤ j from h1)
    rw [Nat.add_mul] at this
    omega

theorem Sim.csbr3 {M : Nat} (A : Csbr3 T) (x : Buf T) (b : Nat) : Sim b 0 (A.spmvP M x b) (fun y => A.spmvBalanced M x y) := by
  refine Sim.parFor (fun i _ _ => Sim.read (fun _ _ => Sim.read (fun _ _ =>
    Sim.seqFor (fun _ _ _ => Sim.read (fun _ _ => Sim.read (fun _ _ => Sim.read (fun _ _ => ?_)))))))
  have := Sim.coo (T := T) (b := b) (o := 0) (yo := mulM M i A.blockSize)
  simp only [Nat.zero_add] at this
  exact this _ _ _ _ _ _ _

end

theorem get_inv {α : Type} {b : Buf α} {i : Nat} {a : α} (h : b.get i = .ok a) : i < b.len ∧ b.dat i = some a := by
  unfold Buf.get at h
  by_cases hi : i < b.len
  · rw [if_pos hi] at h
    cases hd : b.dat i with
    | none => rw [hd] at h; cases h
    | some v => rw [hd] at h; cases h; exact ⟨hi, rfl⟩
  · rw [if_neg hi] at h; cases h

/-- `Cgbr`/`Cgbr2`, both paths. -/
theorem cgbr_safe {β : Type} [AddCommMonoid T] [Mul T] {make : MakeBlock β T} {spmv : β → Buf T → Nat → Buf T → Nat → C (Buf T)}
    {nonzeros : β → C Nat} {code : β → Buf T → Nat → Nat → Nat → Prog T} {M rows columns : Nat} {es : List (Element T)}
    {offR : List Nat} {blockrows : Nat} {offC : List Nat} {blockcols : Nat}
    (PR : Partition offR blockrows rows) (PC : Partition offC blockcols columns)
    (hne : es ≠ []) (hlen : 2 * (es.length + 2) ≤ M) (hgrid : blockrows * blockcols < M)
    (hrows : rows + 1 < M) (hcols : columns < M) (hbr : blockrows ≤ rows) (hbc : blockcols ≤ columns)
    (hin : InRange (ents es) rows columns) {res : Results β T}
    (hres : AllBlocks make spmv nonzeros (offF offR) (offF offC) blockcols (prepared offR blockrows offC blockcols es) res)
    (hcode : ∀ blk, (∃ k, k < (runs Element.block (prepared offR blockrows offC blockcols es)).length ∧ (res k).2.1 = blk) →
      CodeOk (spmv blk) (code blk))
    (nx : Nat) (hnx : columns ≤ nx) (x y : Nat → T) (b : Bool) (P : List (List Nat))
    (hP : b = false → PartShape blockcols blockrows (prepared offR blockrows offC blockcols es) P) (Y n : Nat) :
    safe (fun _ m => m = arr Y 0 (Buf.full rows (spmvSum (ents es) x y))) n
      (spmvBlockedP M ((gbrOf res offR offC rows columns blockrows blockcols (prepared offR blockrows offC blockcols es)).toBlockMat spmv nonzeros)
        ((gbrOf res offR offC rows columns blockrows blockcols (prepared offR blockrows offC blockcols es)).code code) b P (Buf.full nx x) Y)
      (arr Y 0 (Buf.full rows y)) := by
  have H := prepared_blkIn (M := M) PR PC hne (by omega) hgrid hrows hcols hbr (by omega) hin
  have hpl := prepared_length (offR := offR) (blockrows := blockrows) (offC := offC) (blockcols := blockcols) (es := es)
  have hperm := ents_prepared_perm (offR := offR) (blockrows := blockrows) (offC := offC) (blockcols := blockcols) (es := es)
  have R := gbr_blockRep (offR := offR) (offC := offC) (rows := rows) (columns := columns) H (fun i hi => PR.rd_ok i hi)
    (fun i hi => PC.rd_ok i hi) (fun i hi => PR.mono (Nat.le_succ i) hi) hres nx
    (fun i hi => Nat.le_trans (PC.le_total hi) hnx) x
  have hr : offF offR blockrows = rows := PR.at_last
  have key := safe_blocked (M := M) R (code := (gbrOf res offR offC rows columns blockrows blockcols
      (prepared offR blockrows offC blockcols es)).code code) (CodeFor.gbr _ _ _ _ (by
        intro k blk hk
        refine hcode blk ?_
        obtain ⟨hlt, he⟩ := get_inv hk
        have hlt : k < (runs Element.block (prepared offR blockrows offC blockcols es)).length := hlt
        simp only [gbrOf] at he
        rw [List.getElem?_eq_getElem (by simpa using hlt), Option.map_some] at he
        simp at he
        exact ⟨k, hlt, he⟩)) PR.at_zero Y y
    (by show blockrows < M; omega) (by show offF offR blockrows < M; omega) b P (by
      intro hb bi hbi
      obtain ⟨c, c1, c2⟩ := hP hb bi hbi
      have h1 := rowPtrOf_le blockcols (runKeys Element.block (prepared offR blockrows offC blockcols es)) (bi + 1)
      rw [runKeys_length] at h1
      have h2 := runs_length_le Element.block (prepared offR blockrows offC blockcols es)
      have h3 := c2.short
      exact ⟨c, c1, by omega, c2.size, c2.mono, c2.first, c2.last⟩) n
  rw [allEnts_blkEnts H, visit_eq, spmvInOrder_eq_sum, spmvSum_perm hperm] at key
  change safe (fun _ m => m = arr Y 0 (Buf.full (offF offR blockrows) _)) n _ (arr Y 0 (Buf.full (offF offR blockrows) _)) at key
  rw [hr] at key
  exact key

end Gsb
