import Verif.Props.Csbr3Chunk
import Verif.Props.WorkersFloat
import Verif.Cases.Base
/-
Concrete cases: C86.
-/
namespace Gsb

theorem exE_csbr3 : cooToCsbr3 (2 ^ 32) 256 exE 4 3 2 = .ok (csbr3Of 256 2 4 3 2 2 (prepared3 2 2 exE), prepared3 2 2 exE) :=
  csbr3_main (by decide) (by decide) (by decide) (by decide) (by decide) (by decide) (by decide)

/-- The block-rows of `exE` in blocks of 2 by 2 have two blocks each. -/
theorem exE_blockrows : (csbr3Of 256 2 4 3 2 2 (prepared3 2 2 exE)).blockrowPtr.get 0 = .ok 0 ∧
    (csbr3Of 256 2 4 3 2 2 (prepared3 2 2 exE)).blockrowPtr.get 1 = .ok 2 ∧
    (csbr3Of 256 2 4 3 2 2 (prepared3 2 2 exE)).blockrowPtr.get 2 = .ok 4 := by
  simp only [prepared3, sortElementsBlocks, pssSort_ins totalPre_blocks]
  refine ⟨?_, ?_, ?_⟩ <;> krfl

/-- The first block-row in two chunks, the second in three, one of them empty. -/
theorem exE_cuts : CutsAll (2 ^ 32) (csbr3Of 256 2 4 3 2 2 (prepared3 2 2 exE)) [[0, 1, 2], [2, 2, 3, 4]] := by
  intro bi hbi
  have h : bi < 2 := hbi
  have : bi = 0 ∨ bi = 1 := by omega
  rcases this with rfl | rfl
  · exact ⟨_, _, _, rfl, exE_blockrows.1, exE_blockrows.2.1, ⟨by decide, by decide, rfl, rfl⟩, by decide⟩
  · exact ⟨_, _, _, rfl, exE_blockrows.2.1, exE_blockrows.2.2, ⟨by decide, by decide, rfl, rfl⟩, by decide⟩

example : ∃ y', RowTotals (zeroPad 0 exX) (ents exE) 4 exX exY y' ∧
    EverySchedule (fun Y => (csbr3Of 256 2 4 3 2 2 (prepared3 2 2 exE)).spmvChunkedP (2 ^ 32) [[0, 1, 2], [2, 2, 3, 4]]
      (Buf.full 3 exX) Y) 4 exY y' := by
  obtain ⟨A, es', h1, h2⟩ := C86_chunks (2 ^ 32) 256 4 3 2 exE (by decide) (by decide) (by decide) (by decide) (by decide)
    (by decide) (by decide) (by decide)
  rw [exE_csbr3] at h1
  cases h1
  obtain ⟨y', a, -, -, b⟩ := h2 _ exE_cuts 3 (by decide) exX exY
  exact ⟨y', a, b⟩

example : (csbr3Of 256 2 4 3 2 2 (prepared3 2 2 exE)).spmvChunked (2 ^ 32) [[0, 1, 2], [2, 2, 3, 4]] (Buf.full 3 exX)
    (Buf.full 4 exY) = .ok (Buf.full 4 (spmvSum (ents exE) exX exY)) := by
  obtain ⟨A, es', h1, h2⟩ := C86_chunks_sum (2 ^ 32) 256 4 3 2 exE (by decide) (by decide) (by decide) (by decide) (by decide)
    (by decide) (by decide) (by decide)
  rw [exE_csbr3] at h1
  cases h1
  exact h2 _ exE_cuts 3 (by decide) exX exY 4 (by decide)

/-- The second block-row alone, into two cells in the middle of an array of seven. -/
example : ∃ y', (csbr3Of 256 2 4 3 2 2 (prepared3 2 2 exE)).spmvChunk (2 ^ 32) [2, 2, 3, 4] (Buf.full 3 exX) 4 0 3
    (Buf.full 7 exY) 5 = .ok (Buf.full 7 y') ∧
    (∀ r, r < 2 → Total (zeroPad 0 exX) (exY (5 + r) :: products (ents exE) exX (1 * 2 + r)) (y' (5 + r))) ∧
    ∀ j, ¬ (5 ≤ j ∧ j < 5 + 2) → y' j = exY j := by
  obtain ⟨A, es', h1, h2⟩ := C86_chunk (2 ^ 32) 256 4 3 2 exE (by decide) (by decide) (by decide) (by decide) (by decide)
    (by decide) (by decide) (by decide)
  rw [exE_csbr3] at h1
  cases h1
  exact h2 1 [2, 2, 3, 4] 2 4 (by decide) exE_blockrows.2.1 exE_blockrows.2.2 ⟨by decide, by decide, rfl, rfl⟩ (by decide) 3
    (by decide) exX exY 7 5 (by decide)

/-- Blocks of 3 by 3: the second block-row has one row of the matrix.  In one chunk it needs one cell of `y`; in two chunks three. -/
theorem exE_overrun : ∀ A es', cooToCsbr3 (2 ^ 32) 256 exE 4 3 3 = .ok (A, es') →
    (∃ y', A.spmvChunk (2 ^ 32) [1, 2] (Buf.full 3 exX) 2 0 1 (Buf.full 4 exY) 3 = .ok y') ∧
    A.spmvChunk (2 ^ 32) [1, 1, 2] (Buf.full 3 exX) 3 0 2 (Buf.full 4 exY) 3 = .error .oob := by
  intro A es' h
  rw [csbr3_main (by decide) (by decide) (by decide) (by decide) (by decide) (by decide) (by decide)] at h
  cases h
  simp only [prepared3, sortElementsBlocks, pssSort_ins totalPre_blocks]
  refine ⟨⟨_, rfl⟩, ?_⟩
  krfl

example : ¬ ∃ y', (csbr3Of 256 3 4 3 2 1 (prepared3 3 1 exE)).spmvChunk (2 ^ 32) [1, 1, 2] (Buf.full 3 exX) 3 0 2
    (Buf.full 4 exY) 3 = .ok y' :=
  fun ⟨y', h⟩ => absurd (C86_overrun _ _ _ _ _ _ _ _ _ _ (by decide) (by decide) h) (by decide)

/-- Where there is room for it, the theorem applies. -/
example : 5 + 2 ≤ (Buf.full 7 exY).len := by
  obtain ⟨A, es', h1, h2⟩ := C86_chunk (2 ^ 32) 256 4 3 2 exE (by decide) (by decide) (by decide) (by decide) (by decide)
    (by decide) (by decide) (by decide)
  rw [exE_csbr3] at h1
  cases h1
  obtain ⟨y', h, -⟩ := h2 1 [2, 2, 3, 4] 2 4 (by decide) exE_blockrows.2.1 exE_blockrows.2.2 ⟨by decide, by decide, rfl, rfl⟩
    (by decide) 3 (by decide) exX exY 7 5 (by decide)
  exact C86_overrun (2 ^ 32) _ _ _ (Buf.full 7 exY) _ _ _ _ _ (by decide) (by decide) h

end Gsb
