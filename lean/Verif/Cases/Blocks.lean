import Verif.Cases.Base
import Verif.Props.Csbr
import Verif.Props.CgbrWide
import Verif.Props.CgbrRead
import Verif.Props.Cross
import Verif.Props.Counts
import Verif.Props.Broken
/-
Concrete cases for the blocked formats: 2×2 blocks of unequal sizes, 16-bit local and 32-bit global indices.
-/
namespace Gsb

/-- `exB` as elements. -/
def exD : List (Element Int) := exB.map fun e => ⟨e.row, e.col, e.val, 0⟩

theorem exR : Partition [0, 1, 4] 2 4 := ⟨rfl, rfl, rfl, by decide⟩
theorem exC : Partition [0, 2, 3] 2 3 := ⟨rfl, rfl, rfl, by decide⟩

theorem exR_small : BlocksAtMost [0, 1, 4] (2 ^ 16 - 1) := by
  intro i lo hi h1 h2
  rcases i with _ | _ | i <;> simp at h1 h2 <;> omega

theorem exC_small : BlocksAtMost [0, 2, 3] (2 ^ 16 - 1) := by
  intro i lo hi h1 h2
  rcases i with _ | _ | i <;> simp at h1 h2 <;> omega

theorem small_square {rs cs : Nat} (h1 : rs ≤ 2 ^ 16 - 1) (h2 : cs ≤ 2 ^ 16 - 1) : rs * cs < 2 ^ 32 :=
  Nat.lt_of_le_of_lt (Nat.mul_le_mul h1 h2) (by decide)

/-- Some of each kind of block. -/
def exChoose (_ cs n : Nat) : BlockChoice := if n = 1 then .coo else if cs = 1 then .csr else .dense

/-! ### CSBR -/

example := C08_csbr_spmv (2 ^ 32) 8 4 3 exE _ _ _ _ exR exC (by decide) (by decide) (by decide) (by decide) (by decide) (by decide)
  (by decide) (by decide) (by decide) 5 6 (by decide) (by decide) exX exY
example := C08_csbr_const (2 ^ 32) 8 4 3 2 3 exE (by decide) (by decide) (by decide) (by decide) (by decide) (by decide) (by decide)
  (by decide) (by decide) 5 6 (by decide) (by decide) exX exY
example := C08_csbr_mulVec (2 ^ 32) 8 4 3 exE _ _ _ _ exR exC (by decide) (by decide) (by decide) (by decide) (by decide) (by decide)
  (by decide) (by decide) (by decide) exX exY
example := C09_csbr2_spmv (2 ^ 32) 4 3 exE _ _ _ _ exR exC (by decide) (by decide) (by decide) (by decide) (by decide)
  (by decide) (by decide) (by decide) 5 6 (by decide) (by decide) exX exY
example := C09_csbr2_const (2 ^ 32) 4 3 2 3 exE (by decide) (by decide) (by decide) (by decide) (by decide) (by decide)
  (by decide) (by decide) 5 6 (by decide) (by decide) exX exY
example := C10_csbr3_spmv (2 ^ 32) 256 4 3 2 exE (by decide) (by decide) (by decide) (by decide) (by decide) (by decide)
  (by decide) (by decide) 5 6 (by decide) (by decide) exX exY
example := C10_csbr3_truncates (2 ^ 32) 2 4 3 3 exE (by decide) (by decide) (by decide) (by decide) (by decide)
  (by decide) (by decide) 5 6 (by decide) (by decide) exX exY
example := C20_const_offsets (2 ^ 32) 17 5 (by decide) (by decide) (by decide)
example := C21_index_to_blockindex (2 ^ 32) [0, 1, 4] 2 4 3 exR (by decide) (by decide)
example := C22_size_to_offset 256 [200, 3, 100] (by decide)
example := C22_partition 256 [100, 3, 0, 100] (by decide)
example := C23_blocks (2 ^ 32) 4 3 exE _ _ _ _ exR exC (by decide) (by decide) (by decide) (by decide)

theorem constOff_strict {n size : Nat} (hs : 0 < size) (hn : 0 < n) : (constOff n size).Pairwise (· < ·) := by
  unfold constOff
  rw [List.pairwise_append]
  refine ⟨List.pairwise_map.2 (List.pairwise_lt_range.imp fun h => Nat.mul_lt_mul_of_pos_right h hs), List.pairwise_singleton _ _, ?_⟩
  intro a ha b hb
  obtain ⟨i, hi, rfl⟩ := List.mem_map.1 ha
  rw [List.mem_singleton] at hb
  subst hb
  have hi := List.mem_range.1 hi
  unfold constBlocks at hi
  split at hi
  · have : i = 0 := by omega
    subst this
    omega
  · have h1 := Nat.div_mul_le_self b size
    have h2 : (i + 1) * size ≤ b / size * size := Nat.mul_le_mul_right _ hi
    rw [Nat.add_mul] at h2
    omega

/-- C54 with 32-bit indices: 2^16 block-rows of 2^16+1 block-columns. -/
example := C54_ids_collide (2 ^ 32) 131072 65537 (constOff 131072 2) (constBlocks 131072 2) (constOff 65537 1) (constBlocks 65537 1)
  (constOff_partition 131072 2) (constOff_partition 65537 1) (by decide) (by decide) (by decide)
  (constOff_strict (by decide) (by decide)) (constOff_strict (by decide) (by decide)) (7 : Int)

/-- C54 with 32-bit indices: an entry in the last of 2^16 by 2^16 blocks. -/
example := C54_sentinel (2 ^ 32) 8 131072 65536 (constOff 131072 2) (constBlocks 131072 2) (constOff 65536 1) (constBlocks 65536 1)
  (constOff_partition 131072 2) (constOff_partition 65536 1) (by decide) (by decide) (by decide) (by decide) (by decide) (by decide)
  131070 65535 (7 : Int)
  ⟨131070, 131072, constOff_lt (by decide), constOff_last 131072 2, by decide, by decide⟩
  ⟨65535, 65536, constOff_lt (by decide), constOff_last 65536 1, by decide, by decide⟩

/-! ### CGBR -/

example := C11_cgbr_bound (2 ^ 32) (2 ^ 16) (2 ^ 16 - 1) 8 4 3 exChoose (fun _ _ _ => true) exD _ _ _ _ exR exC (by decide) exR_small exC_small
  (fun _ _ _ h1 h2 _ _ => small_square h1 h2) (.inr (by decide)) (by decide) (by decide) (by decide) (by decide) (by decide) (by decide)
  (by decide) (by decide) (by decide)
/-- Entries at one place, no dense blocks. -/
example := C11_cgbr_bound (2 ^ 32) (2 ^ 16) (2 ^ 16) 8 4 3 (fun _ _ n => if n = 1 then .coo else .csr) (fun _ _ _ => true) exE _ _ _ _ exR exC
  (by decide) (fun _ _ _ h1 h2 => Nat.le_trans (exR_small _ _ _ h1 h2) (by decide)) (fun _ _ _ h1 h2 => Nat.le_trans (exC_small _ _ _ h1 h2) (by decide))
  (fun _ _ _ _ _ _ h => by split at h <;> cases h) (.inl fun _ _ _ => by split <;> simp)
  (by decide) (by decide) (by decide) (by decide) (by decide) (by decide) (by decide) (by decide) (by decide)
example := C11_cgbr_spmv (2 ^ 32) (2 ^ 16 - 1) 8 4 3 exChoose (fun _ _ _ => true) exD _ _ _ _ exR exC exR_small exC_small
  (fun _ _ _ h1 h2 _ _ => small_square h1 h2) (.inr (by decide)) (by decide) (by decide) (by decide) (by decide) (by decide) (by decide)
  (by decide) (by decide) (by decide)
example := C11_cgbr_const_bound (2 ^ 32) (2 ^ 16) (2 ^ 16 - 1) 8 4 3 2 (2 ^ 15) exChoose (fun _ _ _ => true) exD (by decide) (by decide) (by decide)
  (by decide) (by decide) (fun _ _ _ h1 h2 _ _ => small_square h1 h2) (.inr (by decide)) (by decide) (by decide) (by decide) (by decide) (by decide)
  (by decide) (by decide)
example := C11_cgbr_const (2 ^ 32) (2 ^ 16 - 1) 8 4 3 2 2 exChoose (fun _ _ _ => true) exD (by decide) (by decide) (by decide) (by decide)
  (fun _ _ _ h1 h2 _ _ => small_square h1 h2) (.inr (by decide)) (by decide) (by decide) (by decide) (by decide) (by decide) (by decide) (by decide)
example := C11_cgbr_mulVec (2 ^ 32) (2 ^ 16 - 1) 8 4 3 exChoose (fun _ _ _ => true) exD _ _ _ _ exR exC exR_small exC_small
  (fun _ _ _ h1 h2 _ _ => small_square h1 h2) (.inr (by decide)) (by decide) (by decide) (by decide) (by decide) (by decide) (by decide)
  (by decide) (by decide) (by decide) exX exY
example := C12_default_factory_right (T := Int) (2 ^ 32) (2 ^ 16) (2 ^ 16 - 1) (by decide) (chooseFactory (2 ^ 32) 4 4 2) True
  (fun _ _ _ h1 h2 _ _ => ⟨small_square h1 h2, trivial⟩)
example := C12_cgbr2_spmv (2 ^ 32) (2 ^ 16 - 1) 8 4 3 _ True exD _ _ _ _ exR exC exR_small exC_small
  (C12_default_factory_right (T := Int) (2 ^ 32) (2 ^ 16) (2 ^ 16 - 1) (by decide) (chooseFactory (2 ^ 32) 4 4 2) True
    (fun _ _ _ h1 h2 _ _ => ⟨small_square h1 h2, trivial⟩)) (fun _ => by decide)
  (by decide) (by decide) (by decide) (by decide) (by decide) (by decide) (by decide) (by decide) (by decide)
example := C12_cgbr2_default (2 ^ 32) (2 ^ 16) (2 ^ 16 - 1) 4 4 2 8 4 3 exD _ _ _ _ exR exC (by decide) exR_small exC_small (by decide) (by decide)
  (by decide) (by decide) (by decide) (by decide) (by decide) (by decide) (by decide) (by decide) (by decide)
/-- With two small indices the lower blocks (three rows) are too tall for COO, the left ones just fit CSR. -/
example := C11_cgbr_wide (2 ^ 32) 2 8 4 3 (fun rs _ n => if rs = 1 then .coo else if n = 1 then .csr else .dense) (fun _ _ _ => true) exD _ _ _ _
  exR exC (by decide) (by decide) (by decide) (by decide) (by decide) (by decide) (by decide) (by decide) (by decide) (by decide) (by decide)
example := C11_cgbr_wide (2 ^ 32) 1 8 4 3 (fun _ _ _ => .csr) (fun _ _ _ => true) exE _ _ _ _
  exR exC (by decide) (by decide) (by decide) (by decide) (by decide) (by decide) (by decide) (by decide) (by decide) (by decide) (by decide)
example := C11_cgbr_rejects (2 ^ 32) 2 8 4 3 (by decide) (fun _ _ _ => .coo) (fun _ _ _ => true) exD _ _ _ _
  exR exC (by decide) (by decide) (by decide) (by decide) (by decide) (by decide) (by decide) (by decide) (by decide)
example := C11_cgbr_default (2 ^ 32) 2 8 4 2 8 4 3 (by decide) (by decide) (by decide) (fun _ _ _ => true) exD _ _ _ _
  exR exC (by decide) (by decide) (by decide) (by decide) (by decide) (by decide) (by decide) (by decide) (by decide)
example := C12_cgbr2_wide (2 ^ 32) 2 8 4 3 (chooseFactory (2 ^ 32) 4 4 1) exD _ _ _ _
  exR exC (by decide) (by decide) (by decide) (by decide) (by decide) (by decide) (by decide) (by decide) (by decide) (by decide)
/-- Entry (3, 0) of the lower left block, at local row 2, acts in row 1 when the block is COO: `y` is wrong. -/
example : (ents exD).map (cgbr2At 2 (fun _ _ _ => .coo) [0, 1, 4] [0, 2, 3] (ents exD)) ≠ ents exD := by decide
example := C12_cgbr2_places (2 ^ 32) 3 8 4 3 (chooseFactory (2 ^ 32) 4 4 1) exD _ _ _ _
  exR exC (by decide) (by decide) (by decide) (by decide) (by decide) (by decide) (by decide) (by decide) (by decide) (by decide) (by decide)
example := C51_cgbr_always_coo 8 4 2 100 200 7000 (by decide) (by decide) (by decide)
example := C51_cgbr_always_coo_rounded id (fun q h => ⟨by simp only [id]; linarith, by simp only [id]; linarith⟩) 8 4 2 100 200 7000 (by decide)
  (by decide) (by decide)
example := C51_cgbr_choice 1 4 8 100 200 7000 (by decide) (by decide)
example := C51_factory_choice (2 ^ 32) 4 4 2 100 200 7000 (by decide)
example := C51_factory_dense_fits (2 ^ 32) 100 200 19000 (by decide) (by decide) (by decide)

/-! ### Agreement, read-back, repetition -/

example := C15_formats_agree (2 ^ 32) 256 8 4 3 2 2 exE _ _ _ _ exR exC (by decide) (by decide) (by decide) (by decide) (by decide) (by decide)
  (by decide) (by decide) (by decide) (by decide) (by decide) (by decide) (by decide) (by decide) exX exY
example := C49_csr_readback (2 ^ 32) 4 3 exA (by decide) (by decide) (by decide) (by decide)
example := C49_cswr_readback (2 ^ 32) 256 4 3 2 exA (by decide) (by decide) (by decide) (by decide) (by decide)
example := C49_csbr_readback (2 ^ 32) 8 4 3 exE _ _ _ _ exR exC (by decide) (by decide) (by decide) (by decide) (by decide) (by decide)
  (by decide) (by decide) (by decide)
example := C49_csbr3_readback (2 ^ 32) 256 4 3 2 exE (by decide) (by decide) (by decide) (by decide) (by decide) (by decide)
  (by decide) (by decide)
example := C50_repeated_spmv (2 ^ 32) 256 8 4 3 2 2 exE _ _ _ _ exR exC (by decide) (by decide) (by decide) (by decide) (by decide) (by decide)
  (by decide) (by decide) (by decide) (by decide) (by decide) (by decide) (by decide) (by decide) exX
example := C50_repeated_exact (2 ^ 32) 4 3 exA (by decide) (by decide) (by decide) (by decide) exX

example := C49_cgbr_readback (2 ^ 32) (2 ^ 16) (2 ^ 16 - 1) 8 4 3 exChoose (fun _ _ _ => true) exD _ _ _ _ exR exC (by decide) exR_small exC_small
  (fun _ _ _ h1 h2 _ _ => small_square h1 h2) (.inr (by decide)) (by decide) (by decide) (by decide) (by decide) (by decide) (by decide)
  (by decide) (by decide) (by decide)
example := C50_repeated_cgbr (2 ^ 32) (2 ^ 16) (2 ^ 16 - 1) 8 4 3 exChoose (fun _ _ _ => true) _ True exD _ _ _ _ exR exC (by decide) exR_small exC_small
  (fun _ _ _ h1 h2 _ _ => small_square h1 h2) (.inr (by decide))
  (C12_default_factory_right (T := Int) (2 ^ 32) (2 ^ 16) (2 ^ 16 - 1) (by decide) (chooseFactory (2 ^ 32) 4 4 2) True
    (fun _ _ _ h1 h2 _ _ => ⟨small_square h1 h2, trivial⟩)) (fun _ => by decide)
  (by decide) (by decide) (by decide) (by decide) (by decide) (by decide) (by decide) (by decide) (by decide) exX

/-! ### Counts -/

example := C48_csr_nonzeros (2 ^ 32) 4 3 exA (by decide) (by decide) (by decide)
example := C48_csbr_counts (2 ^ 32) 8 4 3 exE _ _ _ _ exR exC (by decide) (by decide) (by decide) (by decide) (by decide) (by decide)
  (by decide) (by decide) (by decide)
example := C48_cgbr_counts (2 ^ 32) (2 ^ 16) (2 ^ 16 - 1) 8 4 3 exChoose (fun _ _ _ => true) exD _ _ _ _ exR exC (by decide) exR_small exC_small
  (fun _ _ _ h1 h2 _ _ => small_square h1 h2) (.inr (by decide)) (by decide) (by decide) (by decide) (by decide) (by decide) (by decide)
  (by decide) (by decide) (by decide)
example := C48_cgbr2_counts (2 ^ 32) (2 ^ 16 - 1) 8 4 3 _ True exD _ _ _ _ exR exC exR_small exC_small
  (C12_default_factory_right (T := Int) (2 ^ 32) (2 ^ 16) (2 ^ 16 - 1) (by decide) (chooseFactory (2 ^ 32) 4 4 2) True
    (fun _ _ _ h1 h2 _ _ => ⟨small_square h1 h2, trivial⟩)) (fun _ => by decide)
  (by decide) (by decide) (by decide) (by decide) (by decide) (by decide) (by decide) (by decide) (by decide)
example := C53_input_kept (2 ^ 32) 256 8 4 3 2 2 exE _ _ _ _ exR exC (by decide) (by decide) (by decide) (by decide) (by decide) (by decide)
  (by decide) (by decide) (by decide) (by decide) (by decide) (by decide)
example := C53_cgbr_localizes (2 ^ 32) (2 ^ 16) (2 ^ 16 - 1) 8 4 3 exChoose (fun _ _ _ => true) exD _ _ _ _ exR exC (by decide) exR_small exC_small
  (fun _ _ _ h1 h2 _ _ => small_square h1 h2) (.inr (by decide)) (by decide) (by decide) (by decide) (by decide) (by decide) (by decide)
  (by decide) (by decide) (by decide)
example := C53_cgbr_destroys (2 ^ 32) (2 ^ 16) (2 ^ 16 - 1) 8 4 3 exChoose (fun _ _ _ => true) exD _ _ _ _ exR exC (by decide) exR_small exC_small
  (fun _ _ _ h1 h2 _ _ => small_square h1 h2) (.inr (by decide)) (by decide) (by decide) (by decide) (by decide) (by decide) (by decide)
  (by decide) (by decide) (by decide) ⟨3, 0, 2⟩ (by decide) 1 1 ⟨1, 4, rfl, rfl, by decide, by decide⟩ rfl (by decide)
example := C19_partition_blockrow (2 ^ 32) 4 80 (fun b => .ok (5 + b)) (fun b => 5 + b) 2 9 (by decide) (by decide) (by decide)
  (fun _ _ _ => rfl) (by decide)
example := C19_tiles [2, 5, 5, 9] 2 9 rfl rfl (by decide) 6 (by decide) (by decide)
example := C19_csbr_partition (2 ^ 32) 8 4 3 exE _ _ _ _ exR exC (by decide) (by decide) (by decide) (by decide) (by decide) (by decide)
  (by decide) (by decide) (by decide)

/-! ### What never works -/

example := C13_bcsr_never_returns (2 ^ 32) 4 3 exE [0, 1, 4] 2 [0, 2, 3] 2 (by decide)
example := C14_sort_triplets_blocks_oob (T := Int) (2 ^ 32) 4 (fun _ _ l => .ok l) [⟨3, 0, 2⟩, ⟨1, 2, 7⟩, ⟨0, 2, 1⟩] [⟨2, 2, 5⟩] [0, 1, 4] 2 exR (by decide)
  (by decide) (by decide) (by decide) (by decide)

end Gsb
