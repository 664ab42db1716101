import Verif.Cases.Blocks
import Verif.Props.Outside2
/-
Concrete cases for C85: the example matrix, and the example matrix with one more entry outside.
-/
namespace Gsb

/-- `exE` with one entry below the last row. -/
def exBelow : List (Element Int) := exE ++ [⟨4, 0, 1, 9⟩]

/-- `exE` with one entry right of the last column. -/
def exRight : List (Element Int) := exE ++ [⟨2, 3, 1, 9⟩]

-- the hypotheses hold for the example matrix: conversions and products of matrices with all entries inside come to an end
example : InRange (ents exE) 4 3 ∧ ∃ y', y' = Buf.full 4 (spmvExact (ents exE) exX exY) := by
  obtain ⟨A, es', h1, h2, -⟩ := C01_csr_spmv (2 ^ 32) 4 3 exE (by decide) (by decide) (by decide) (by decide) 3 4 (Nat.le_refl _)
    (Nat.le_refl _) exX exY
  have := C85_csr (2 ^ 32) 4 3 exE (by decide) (by decide) (by decide) (by decide) exX exY _ (by rw [h1, ok_bind]; exact h2)
  exact ⟨this.1, _, rfl⟩
example : InRange (ents exE) 4 3 := by
  obtain ⟨A, es', h1, -, h2⟩ := C01_csr_spmv (2 ^ 32) 4 3 exE (by decide) (by decide) (by decide) (by decide) 3 4 (Nat.le_refl _)
    (Nat.le_refl _) exX exY
  exact (C85_csr_serial (2 ^ 32) 4 3 exE (by decide) (by decide) (by decide) (by decide) exX exY _ (by rw [h1, ok_bind]; exact h2)).1
example : InRange (ents exE) 4 3 := by
  obtain ⟨A, es', h1, h2, -⟩ := C02_csr2_spmv (2 ^ 32) 4 3 exE (by decide) (by decide) (by decide) 3 4 (Nat.le_refl _)
    (Nat.le_refl _) exX exY
  exact (C85_csr2 (2 ^ 32) 4 3 exE (by decide) (by decide) (by decide) exX exY _ (by rw [h1, ok_bind]; exact h2)).1
example := C85_coo 4 3 exE exX exY _ (C04_coo_array_spmv 4 3 exE (by decide) exX exY)
example : InRange (ents exE) 4 3 := by
  obtain ⟨A, es', h1, -, -, h2⟩ := C07_cswr_spmv (2 ^ 32) (2 ^ 8) 4 3 3 exE (by decide) (by decide) (by decide) (by decide) (by decide) exX exY
  exact (C85_cswr (2 ^ 32) (2 ^ 8) 4 3 3 exE (by decide) (by decide) (by decide) (by decide) (by decide) exX exY _
    (by rw [h1, ok_bind]; exact h2)).1

-- an entry outside is noticed: no product, no conversion
example (y' : Buf Int) : (do let r ← cooToCsr (2 ^ 32) exBelow 4 3
                             r.1.spmv (Buf.full 3 exX) 0 (Buf.full 4 exY) 0) ≠ .ok y' := fun h =>
  absurd (C85_csr (2 ^ 32) 4 3 exBelow (by decide) (by decide) (by decide) (by decide) exX exY _ h).1 (by decide)
example (y' : Buf Int) : (do let r ← cooToCsr (2 ^ 32) exRight 4 3
                             r.1.spmv (Buf.full 3 exX) 0 (Buf.full 4 exY) 0) ≠ .ok y' := fun h =>
  absurd (C85_csr (2 ^ 32) 4 3 exRight (by decide) (by decide) (by decide) (by decide) exX exY _ h).1 (by decide)
example (r) : cooToCsbr (2 ^ 32) 8 exBelow 4 3 [0, 1, 4] 2 [0, 2, 3] 2 ≠ .ok r := fun h =>
  absurd (C85_csbr (2 ^ 32) 8 4 3 exBelow _ _ _ _ exR exC (by decide) (by decide) (by decide) (by decide) r h) (by decide)
example (r) : cooToCsbr2 (2 ^ 32) exRight 4 3 [0, 1, 4] 2 [0, 2, 3] 2 ≠ .ok r := fun h =>
  absurd (C85_csbr2 (2 ^ 32) 4 3 exRight _ _ _ _ exR exC (by decide) (by decide) (by decide) (by decide) r h) (by decide)
example (r) : cooToCgbr (2 ^ 32) (2 ^ 16) 8 exChoose (fun _ _ _ => true) exBelow 4 3 [0, 1, 4] 2 [0, 2, 3] 2 ≠ .ok r := fun h =>
  absurd (C85_cgbr (2 ^ 32) (2 ^ 16) 8 4 3 exChoose (fun _ _ _ => true) exBelow _ _ _ _ exR exC (by decide) (by decide) (by decide)
    (by decide) (by decide) r h) (by decide)
example (r) : cgbr2Create (2 ^ 32) 8 (factoryDefault (2 ^ 32) (2 ^ 16) fun _ _ _ => .csr) exRight 4 3 [0, 1, 4] 2 [0, 2, 3] 2 ≠ .ok r :=
  fun h => absurd (C85_cgbr2 (2 ^ 32) 8 4 3 _ (keepsLength_factory _ _ _) exRight _ _ _ _ exR exC (by decide) (by decide) (by decide)
    (by decide) (by decide) r h) (by decide)
-- blocks of 3 by 3: the matrix of 4 by 3 takes up 6 by 3
example (r) : cooToCsbr3 (2 ^ 32) (2 ^ 16) exRight 4 3 3 ≠ .ok r := fun h =>
  absurd (C85_csbr3 (2 ^ 32) (2 ^ 16) 4 3 3 exRight (by decide) (by decide) r h) (by decide)
example := C85_csbr3_accepts (2 ^ 32) (2 ^ 16) 4 3 3 exBelow (by decide) (by decide) (by decide) (by decide) (by decide) (by decide)
  (by decide) (by decide) 3 6 (by decide) (by decide) exX exY

-- and conversions of the example matrix do come to an end
example : ∃ r, cooToCsbr (2 ^ 32) 8 exE 4 3 [0, 1, 4] 2 [0, 2, 3] 2 = .ok r := by
  obtain ⟨A, es', h, -⟩ := C08_csbr_spmv (2 ^ 32) 8 4 3 exE _ _ _ _ exR exC (by decide) (by decide) (by decide) (by decide) (by decide)
    (by decide) (by decide) (by decide) (by decide) 3 4 (Nat.le_refl _) (Nat.le_refl _) exX exY
  exact ⟨_, h⟩

/-- A matrix of 2 by 2 and an entry with row index 0 in a MatrixMarket file. -/
def exZeroRow : List (Ent Int) := [⟨2 ^ 32 - 1, 0, 7⟩, ⟨0, 0, 5⟩, ⟨1, 1, 3⟩]

example := C85_csr_last_row (2 ^ 32) 2 2 exZeroRow (by decide) (by decide) (by decide) (by decide) exX exY
-- 5 at (0,0) and 3 at (1,1) become 3 at (0,1) and 7 at (1,0)
example : pulledUp 1 ([⟨0, 0, 5⟩, ⟨1, 1, 3⟩, ⟨2 ^ 32 - 1, 0, 7⟩] : List (Ent Int)) = [⟨0, 1, 3⟩, ⟨1, 0, 7⟩] := rfl

example := C85_dense_wraps (2 ^ 32) 4 3 (ents exRight)
example : carry 3 (⟨2, 3, 1⟩ : Ent Int) = ⟨3, 0, 1⟩ := rfl

end Gsb
