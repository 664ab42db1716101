import Verif.Cases.Blocks
import Verif.Props.Schedule
import Verif.Props.ScheduleWide
import Verif.Props.ParSort
import Verif.Props.Bits
import Verif.Props.Permute
/-
Concrete cases for schedules, sorting, block sizes and permutations.
-/
namespace Gsb

/-! ### Schedules -/

/-- The kernel theorems apply to what the constructors make. -/
example : ∃ A : Csr Int, EverySchedule (fun Y => A.spmvP (Buf.full 3 exX) 0 Y 0) 4 exY (spmvExact exA exX exY) := by
  obtain ⟨A, _, -, h⟩ := C01_csr_spmv (2 ^ 32) 4 3 exA (by decide) (by decide) (by decide) (by decide) 3 4 (by decide) (by decide) exX exY
  exact ⟨A, C16_csr_kernel A _ 4 exY _ (by simpa [ents, NZ.toEnt] using h.1)⟩

example : ∃ A : Csr2 Int, EverySchedule (fun Y => A.spmvP (Buf.full 3 exX) Y) 4 exY (spmvExact exA exX exY) := by
  obtain ⟨A, _, -, h⟩ := C02_csr2_spmv (2 ^ 32) 4 3 exA (by decide) (by decide) (by decide) 3 4 (by decide) (by decide) exX exY
  exact ⟨A, C16_csr2_kernel A _ 4 exY _ (by simpa [ents, NZ.toEnt] using h.1)⟩

/-- A dense block with two rows. -/
example := C16_dense_kernel (2 ^ 32) (⟨Buf.ofList [2, 3, 5, 7], 2, 2⟩ : Dense Int) (Buf.full 2 exX) 2 exY
  (fun i => if i = 0 then 104 else if i = 1 then 108 else exY i) (by
    show Except.ok _ = _
    refine congrArg Except.ok (Buf.ext' rfl fun i => ?_)
    rcases i with _ | _ | i <;> rfl)

/-- Two of three rows stored. -/
example := C16_crcsr_kernel (⟨Buf.ofList [2, 3, 5], Buf.ofList [1, 0, 1], Buf.ofList [0, 1, 3], Buf.ofList [0, 2], 2⟩ : CrCsr Int)
  (Buf.full 2 exX) 3 exY (fun i => if i = 0 then 104 else if i = 2 then 105 else exY i)
  (fun i j r h1 h2 h3 h4 => by
    have h2 : j < 2 := h2
    have : j = 1 := by omega
    have : i = 0 := by omega
    subst i j
    cases h3
    cases h4)
  (by
    show Except.ok _ = _
    refine congrArg Except.ok (Buf.ext' rfl fun i => ?_)
    rcases i with _ | _ | _ | i <;> rfl)
example := C16_csr2 (2 ^ 32) 4 3 exA (by decide) (by decide) (by decide) 3 (by decide) exX exY
example := C16_crcsr (2 ^ 32) 4 3 exA (by decide) (by decide) (by decide) exX exY
example := C16_dense (2 ^ 32) 4 3 exB (by decide) (by decide) (by decide) exX exY
example := C17_cswr (2 ^ 32) 256 4 3 2 exA (by decide) (by decide) (by decide) (by decide) (by decide) exX exY
example := C17_csbr2 (2 ^ 32) 4 3 exE _ _ _ _ exR exC (by decide) (by decide) (by decide) (by decide) (by decide) (by decide) (by decide)
  (by decide) 3 (by decide) exX exY
example := C17_csbr3 (2 ^ 32) 256 4 3 2 exE (by decide) (by decide) (by decide) (by decide) (by decide) (by decide) (by decide) (by decide) 3
  (by decide) exX exY
example := C18_cgbr (2 ^ 32) (2 ^ 16) (2 ^ 16 - 1) 8 4 3 exChoose (fun _ _ _ => true) exD _ _ _ _ exR exC (by decide) exR_small exC_small
  (fun _ _ _ h1 h2 _ _ => small_square h1 h2) (.inr (by decide)) (by decide) (by decide) (by decide) (by decide) (by decide) (by decide)
  (by decide) (by decide) (by decide) 3 (by decide) exX exY
example (balanced : Bool) := C18_cgbr2 (2 ^ 32) (2 ^ 16) (2 ^ 16 - 1) 8 4 3 (chooseFactory (2 ^ 32) 4 4 2) True exD _ _ _ _ exR exC (by decide)
  exR_small exC_small (fun _ _ _ h1 h2 _ _ => ⟨small_square h1 h2, trivial⟩) (fun _ => by decide) (by decide) (by decide) (by decide) (by decide)
  (by decide) (by decide) (by decide) (by decide) (by decide) 3 (by decide) balanced exX exY

/-! Blocks and wide rows with more rows or columns than there are small indices. -/
example := C17_cswr_any (2 ^ 32) 2 4 3 3 exA (by decide) (by decide) (by decide) (by decide) exX exY
example := C17_csbr3_any (2 ^ 32) 2 4 3 3 exE (by decide) (by decide) (by decide) (by decide) (by decide) (by decide) (by decide) 3
  (by decide) exX exY
example := C18_cgbr_wide (2 ^ 32) 2 8 4 3 (fun rs _ n => if rs = 1 then .coo else if n = 1 then .csr else .dense) (fun _ _ _ => true) exD _ _ _ _
  exR exC (by decide) (by decide) (by decide) (by decide) (by decide) (by decide) (by decide) (by decide) (by decide) (by decide) (by decide)
  3 (by decide) exX exY
example (balanced : Bool) := C18_cgbr2_wide (2 ^ 32) 2 8 4 3 (chooseFactory (2 ^ 32) 4 4 1) exD _ _ _ _
  exR exC (by decide) (by decide) (by decide) (by decide) (by decide) (by decide) (by decide) (by decide) (by decide) (by decide)
  3 (by decide) balanced exX exY

/-- C18: three chunks of the block-row of `exampleGbr`, in a memory with another array. -/
example := C18_chunk (2 ^ 32) exampleGbr [0, 1, 2, 3] (Buf.ofList [1, 10, 100]) 1 4 0 3 5 (Buf.ofList [7]) _ rfl rfl 3
  (arr 8 0 (Buf.ofList [1, 2])) (fun l => by
    by_cases h : l.1 = 8
    · left; simp [arr, h]
    · right; simp [arr, h])
  ⟨9, fun b i hb => by
    have h3 : b ≠ 3 := by omega
    have h8 : b ≠ 8 := by omega
    simp [Mem.union, arr, h3, h8]⟩

/-- C18: that block-row as the only one of a matrix. -/
example := C18_rows (2 ^ 32) exampleGbr [[0, 1, 2, 3]] (Buf.ofList [1, 10, 100]) (fun i => i) rfl (fun _ _ => Nat.le_succ _)
  (fun i hi => by have hi : i ≤ 1 := hi; interval_cases i <;> rfl) (by decide)
  (fun i hi => by have hi : i ≤ 1 := hi; omega) (fun _ => 7) (fun i => if i = 0 then 539 else 7)
  (fun bi hbi => by
    have hbi : bi < 1 := hbi
    interval_cases bi
    refine ⟨_, rfl, ?_⟩
    show Except.ok _ = _
    refine congrArg Except.ok (Buf.ext' rfl fun i => ?_)
    rcases i with _ | i <;> rfl)

example := C24_cutoffs ltFst ltFst_pre true 7 5 [(2, 0), (1, 1), (2, 2), (1, 3)]

/-! ### Block sizes -/

example := C27_next_power_of_two 1000 (by decide) (by decide)
example := C27_zero (2 ^ 63 + 1) (.inr (by decide)) (by decide)

theorem ceilLog2_of {n k : Nat} (h1 : n ≤ 2 ^ (k + 1)) (h2 : 2 ^ k < n) : CeilLog2 n (k + 1) := by
  refine ⟨h1, fun j hj => ?_⟩
  by_contra hc
  have : 2 ^ j ≤ 2 ^ k := Nat.pow_le_pow_right (by omega) (by omega)
  omega

example := C29_pick_block_size 32 (.inl rfl) (fun _ _ => 12) 1000 2000 4 4 10 11 ⟨by decide, by decide⟩ ⟨by decide, by decide⟩
  (ceilLog2_of (by decide) (by decide)) (ceilLog2_of (by decide) (by decide)) (by decide) (by decide)
example := C29_pick_block_size 64 (.inr rfl) (fun _ _ => 12) 1000000 3 8 1 20 2 ⟨by decide, by decide⟩ ⟨by decide, by decide⟩
  (ceilLog2_of (by decide) (by decide)) (ceilLog2_of (by decide) (by decide)) (by decide) (by decide)
example := C29_degenerate (fun _ _ => 12) (2 ^ 31 + 1) 2000 4 4 (by decide) (by decide) (by decide) (by decide) (.inr (.inl (by decide)))
example := C29_fits (fun _ _ => 12) 1000 2000 4 4 (by decide) (by decide) (by decide) (by decide)
example := C29_wide_undefined (fun _ _ => 12) (2 ^ 31 + 1) 2000 4 4 (by decide) (by decide) (by decide) (by decide)
example := C30_blocks_fit (fun _ _ => 12) 1000 2000 4 4 32 (by decide) (by decide) (by decide) (by decide) (by decide) (by decide) rfl (by decide)
example := C30_cgbr (T := Int) (fun _ _ => 12) 1000 2000 4 4 32 exChoose (fun _ _ _ => true) exD (.inr (by decide)) (by decide) (by decide) (by decide)
  (by decide) (by decide) rfl (by decide) (by decide) (by decide) (by decide) (by decide)
example := C31_small_zero (fun _ _ => 12) 16 1000 4 4 (by decide) (by decide) (by decide) (by decide)

/-! ### Permutations -/

def exPi (k : Nat) : Nat := [2, 0, 3, 1].getD k 0

theorem exPi_perm : IsPerm 4 exPi := ⟨by decide, fun j k hj hk => by interval_cases j <;> interval_cases k <;> simp [exPi]⟩
theorem exPi_get : ∀ k, k < 4 → (Buf.ofList [2, 0, 3, 1]).get k = .ok (exPi k) := by decide

/-- A permutation of 3 columns. -/
def exSi (k : Nat) : Nat := [1, 2, 0].getD k 0
theorem exSi_perm : IsPerm 3 exSi := ⟨by decide, fun j k hj hk => by interval_cases j <;> interval_cases k <;> simp [exSi]⟩

example := C32_invert _ 4 exPi exPi_get exPi_perm
example := C32_round_trip _ 4 exPi exPi_get exPi_perm
example := C32_invert_schedules _ 4 exPi exPi_get exPi_perm
example := C32_in_place_schedules (fun n : Nat => .ok (n + 1)) [4, 5, 6] [5, 6, 7] rfl
example := C32_permute_schedules (T := Int) (Buf.ofList [2, 0, 3, 1]) [3, 3, 0] [1, 1, 2] exA _ rfl rfl
example := C32_not_a_permutation (Buf.ofList [2, 0, 2]) 3 (fun k => [2, 0, 2].getD k 0) (by decide) (by decide) 0 2 (by decide) (by decide) (by decide) rfl
example := C33_renames (T := Int) _ (Buf.ofList [1, 2, 0]) 4 3 exPi exSi exPi_get (by decide) exA [3, 0] [2, 1] [5, 6] (by decide) (by decide) (by decide)
example := C33_coo (T := Int) _ 4 exPi exPi_get exPi_perm exA (by decide) exX (fun j => exX ([1, 3, 0, 2].getD j 0)) exY
  (fun j => exY ([1, 3, 0, 2].getD j 0)) (fun i hi => by interval_cases i <;> rfl) (fun i hi => by interval_cases i <;> rfl)
example := C33_csr (T := Int) (2 ^ 32) 4 3 exPi exSi exPi_perm exSi_perm exA (by decide) (by decide) (by decide) (by decide)
  exX (fun j => exX ([2, 0, 1].getD j 0)) exY
  (fun j => exY ([1, 3, 0, 2].getD j 0)) (fun i hi => by interval_cases i <;> rfl) (fun i hi => by interval_cases i <;> rfl)
example := C34_block_size (2 ^ 32) 2 [3, 0, 4] (by decide) (by decide) (by decide)
example := C34_expand_index (2 ^ 32) [0, 1, 4] 2 4 4 3 exR (fun i lo hi h1 h2 => by rcases i with _ | _ | i <;> simp at h1 h2 <;> omega)
  (by decide) (by decide) (by decide) (by decide)
example := C34_order [0, 1, 4] 2 4 4 0 3 0 6 exR (fun i lo hi h1 h2 => by rcases i with _ | _ | i <;> simp at h1 h2 <;> omega)
  ⟨0, 0, 1, rfl, rfl, by decide, by decide, rfl⟩ ⟨1, 1, 4, rfl, rfl, by decide, by decide, rfl⟩
example := C34_expand_indeces (2 ^ 32) 2 [3, 1, 4] [0, 2, 3, 4, 7] (by decide) (by decide) (by decide) (by decide) (by decide) (by decide)
example := C34_expanded (T := Int) (2 ^ 32) 2 [3, 1, 4] [⟨7, 3, 5, 0⟩, ⟨0, 4, 2, 0⟩] (by decide) (by decide) (by decide) (by decide) (by decide)
  (by decide) (by decide) (by decide)
example := C34_schedules (T := Int) (2 ^ 32) [0, 3, 4, 8] 3 4 [0, 2, 3, 4, 7] [0, 2, 4, 8, 11] [⟨7, 3, 5, 7⟩, ⟨0, 4, 2, 2⟩]
  [⟨11, 4, 5, 7⟩, ⟨0, 8, 2, 2⟩] (by decide +kernel) (by decide +kernel)

end Gsb
