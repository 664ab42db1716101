import Verif.Cases.Blocks
import Verif.Props.Concurrent
/-
Concrete cases for C87.
-/
namespace Gsb

example := C87_csr (2 ^ 32) 4 3 exA (by decide) (by decide) (by decide) (by decide) 3 (by decide)
example := C87_csr2 (2 ^ 32) 4 3 exA (by decide) (by decide) (by decide) 3 (by decide)
example := C87_cswr (2 ^ 32) 256 4 3 2 exA (by decide) (by decide) (by decide) (by decide) (by decide)
example := C87_csbr (2 ^ 32) 8 4 3 exE _ _ _ _ exR exC (by decide) (by decide) (by decide) (by decide) (by decide) (by decide) (by decide)
  (by decide) (by decide) 3 (by decide)
example := C87_csbr2 (2 ^ 32) 4 3 exE _ _ _ _ exR exC (by decide) (by decide) (by decide) (by decide) (by decide) (by decide) (by decide)
  (by decide) 3 (by decide)
example := C87_csbr3 (2 ^ 32) 256 4 3 2 exE (by decide) (by decide) (by decide) (by decide) (by decide) (by decide) (by decide) (by decide) 3
  (by decide)
example := C87_cgbr (2 ^ 32) (2 ^ 16) (2 ^ 16 - 1) 8 4 3 exChoose (fun _ _ _ => true) exD _ _ _ _ exR exC (by decide) exR_small exC_small
  (fun _ _ _ h1 h2 _ _ => small_square h1 h2) (.inr (by decide)) (by decide) (by decide) (by decide) (by decide) (by decide) (by decide)
  (by decide) (by decide) (by decide) 3 (by decide)
example (balanced : Bool) := C87_cgbr2 (2 ^ 32) (2 ^ 16) (2 ^ 16 - 1) 8 4 3 (chooseFactory (2 ^ 32) 4 4 2) True exD _ _ _ _ exR exC (by decide)
  exR_small exC_small (fun _ _ _ h1 h2 _ _ => ⟨small_square h1 h2, trivial⟩) (fun _ => by decide) (by decide) (by decide) (by decide) (by decide)
  (by decide) (by decide) (by decide) (by decide) (by decide) 3 (by decide) balanced

/-- Arrays 5, 6, 7, … for threads 0, 1, 2, …. -/
theorem exOwn (n : Nat) : OwnVectors n (5 + ·) := fun i j h _ h' => by simp only at h'; omega

/-- Three threads with a CSR matrix in common; the first multiplies twice, by two different vectors, the second once, the third
three times.  The memory they start from and the one they leave. -/
example : ∃ A es', cooToCsr (2 ^ 32) exA 4 3 = .ok (A, es') ∧
    AllSchedules (Prog.parFor 0 3 (fun i => callsInTurn (5 + i) (([[exX, exY], [exX], [exY, exX, exX]].getD i []).map
        (fun x => ⟨fun Y => A.spmvP (Buf.full 3 x) 0 Y 0, spmvExact (ents exA) x⟩))))
      (vectors 3 (5 + ·) (fun _ => 4) (fun _ => exY))
      (vectors 3 (5 + ·) (fun _ => 4) (fun i => ([[exX, exY], [exX], [exY, exX, exX]].getD i []).foldl (fun z x => spmvExact (ents exA) x z) exY)) := by
  obtain ⟨A, es', h, h2⟩ := C87_csr (2 ^ 32) 4 3 exA (by decide) (by decide) (by decide) (by decide) 3 (by decide)
  have := h2 3 (5 + ·) (fun i => [[exX, exY], [exX], [exY, exX, exX]].getD i []) (fun _ => exY) Mem.empty (exOwn 3) (disj_empty _) finiteMem_empty
  rw [Mem.union_empty, Mem.union_empty] at this
  exact ⟨A, es', h, this⟩

/-- Where thread 2's value 3 is. -/
example : vectors 3 (5 + ·) (fun _ => 4) (fun _ => exY) (7, 3) = some (some (exY 3)) :=
  vectors_at (exOwn 3) (i := 2) (k := 3) (by decide) (by decide)

/-- One call of each, alone. -/
theorem exCalls : ∃ (A : Csr Int) (B : Csr2 Int),
    Call.Works ⟨fun Y => A.spmvP (Buf.full 3 exX) 0 Y 0, spmvExact (ents exA) exX⟩ 4 ∧
    Call.Works ⟨fun Y => B.spmvP (Buf.full 3 exX) Y, spmvExact (ents exA) exX⟩ 4 := by
  obtain ⟨A, _, h, -⟩ := C16_csr (2 ^ 32) 4 3 exA (by decide) (by decide) (by decide) (by decide) 3 (by decide) exX exY
  obtain ⟨B, _, h', -⟩ := C16_csr2 (2 ^ 32) 4 3 exA (by decide) (by decide) (by decide) 3 (by decide) exX exY
  refine ⟨A, B, fun y => ?_, fun y => ?_⟩
  · obtain ⟨_, _, h2, h3⟩ := C16_csr (2 ^ 32) 4 3 exA (by decide) (by decide) (by decide) (by decide) 3 (by decide) exX y
    rw [h] at h2; cases h2; exact h3
  · obtain ⟨_, _, h2, h3⟩ := C16_csr2 (2 ^ 32) 4 3 exA (by decide) (by decide) (by decide) 3 (by decide) exX y
    rw [h'] at h2; cases h2; exact h3

/-- Two threads, one with a CSR matrix and then with a CSR2 matrix, the other with the CSR2 matrix. -/
example : ∃ (A : Csr Int) (B : Csr2 Int), AllSchedules (Prog.parFor 0 2 (fun i => callsInTurn (5 + i)
      (if i = 0 then [⟨fun Y => A.spmvP (Buf.full 3 exX) 0 Y 0, spmvExact (ents exA) exX⟩,
        ⟨fun Y => B.spmvP (Buf.full 3 exX) Y, spmvExact (ents exA) exX⟩]
      else [⟨fun Y => B.spmvP (Buf.full 3 exX) Y, spmvExact (ents exA) exX⟩])))
    ((vectors 2 (5 + ·) (fun _ => 4) (fun _ => exY)).union Mem.empty)
    ((vectors 2 (5 + ·) (fun _ => 4) (fun i => effectInTurn exY
      (if i = 0 then [⟨fun Y => A.spmvP (Buf.full 3 exX) 0 Y 0, spmvExact (ents exA) exX⟩,
        ⟨fun Y => B.spmvP (Buf.full 3 exX) Y, spmvExact (ents exA) exX⟩]
      else [⟨fun Y => B.spmvP (Buf.full 3 exX) Y, spmvExact (ents exA) exX⟩]))).union Mem.empty) := by
  obtain ⟨A, B, hA, hB⟩ := exCalls
  refine ⟨A, B, C87_threads 2 (5 + ·) (fun _ => 4) (fun i => _) (fun _ => exY) (exOwn 2) (fun i hi c hc => ?_) Mem.empty (disj_empty _)
    finiteMem_empty⟩
  rcases i with _ | i
  · simp only [if_true, List.mem_cons, List.not_mem_nil, or_false] at hc
    rcases hc with rfl | rfl
    · exact hA
    · exact hB
  · simp only [Nat.add_eq_zero_iff, Nat.one_ne_zero, and_false, if_false, List.mem_cons, List.not_mem_nil, or_false] at hc
    subst hc
    exact hB

/-- One thread, two calls. -/
example : ∃ (A : Csr Int) (B : Csr2 Int), EverySchedule (fun Y => callsInTurn Y
      [⟨fun Y => A.spmvP (Buf.full 3 exX) 0 Y 0, spmvExact (ents exA) exX⟩, ⟨fun Y => B.spmvP (Buf.full 3 exX) Y, spmvExact (ents exA) exX⟩])
    4 exY (spmvExact (ents exA) exX (spmvExact (ents exA) exX exY)) := by
  obtain ⟨A, B, hA, hB⟩ := exCalls
  refine ⟨A, B, C87_in_turn 4 _ (fun c hc => ?_) exY⟩
  simp only [List.mem_cons, List.not_mem_nil, or_false] at hc
  rcases hc with rfl | rfl
  · exact hA
  · exact hB

/-- Row 0 of `exA` changes. -/
theorem exChange : ∃ i, i < 4 ∧ spmvExact (ents exA) exX exY i ≠ exY i := by
  refine ⟨0, by decide, ?_⟩
  have : rowByColumn (ents exA) 0 = [⟨0, 2, 1⟩] := by
    unfold rowByColumn
    rw [show rowEntries (ents exA) 0 = [⟨0, 2, 1⟩] from rfl]
    simp [List.mergeSort]
  unfold spmvExact
  rw [this]
  decide

example := C87_csr_same_vector (2 ^ 32) 4 3 exA (by decide) (by decide) (by decide) (by decide) 3 (by decide) exX exY exChange 5 Mem.empty
  (disj_empty _) finiteMem_empty

end Gsb
