import Verif.Cases.Files
import Verif.Props.Heap
import Verif.Props.Drivers
import Verif.Props.Result
import Verif.Props.BlockTest
/-
Concrete cases for allocation, the benchmark drivers and the result check.
-/
namespace Gsb

open scoped UInt8.CommRing

/-! ### Allocation -/

theorem exOrder : InBlockOrder (2 ^ 32) [⟨0, 1, (5 : Int), 0⟩, ⟨3, 2, 7, 3⟩] 2 := by
  refine ⟨[⟨3, 2, 7, 0⟩, ⟨0, 1, 5, 0⟩], [⟨3, 2, 7, 3⟩, ⟨0, 1, 5, 0⟩], 4, 4, 2, 2, [0, 2, 4], [0, 2, 4],
    ⟨rfl, rfl, rfl, by decide⟩, ⟨rfl, rfl, rfl, by decide⟩, by decide, by decide, by decide, ?_, by simp, by decide, ?_, ?_, ?_⟩
  · intro e he
    simp [ents, NZ.toEnt] at he
    rcases he with rfl | rfl <;> decide
  · decide +kernel
  · simp [sortElementsBlocks, pssSort, List.mergeSort, List.MergeSort.Internal.splitInTwo, ltBlocks, leOf]
  · decide

example := C47_csbr2 true false exOrder
example := C47_csbr2_sized exOrder
example := C47_csbr_mismatch exOrder
example := C47_csbr_leak exOrder

/-! ### Drivers -/

example := C68_stats (fun (t n : Nat) => t / n) [12, 10, 14] (by decide)

/-- `exFiles`, and a permutation of 1001 that exchanges 0 and 1. -/
def exPermFiles : FS := fun name => if name = "q" then some (packed (idx 4) ([1, 0] ++ (List.range 999).map (· + 2))) else exFiles name

theorem exSwap_get (k : Nat) (hk : k < 1001) : ([1, 0] ++ (List.range 999).map (· + 2)).getD k 0 = if k = 0 then 1 else if k = 1 then 0 else k := by
  rcases k with _ | _ | k
  · rfl
  · rfl
  · rw [if_neg (by omega), if_neg (by omega), List.getD_eq_getElem?_getD]
    rw [List.getElem?_append_right (by simp), List.getElem?_map, List.getElem?_range (by simp; omega)]
    simp

theorem exSwap_len : ([1, 0] ++ (List.range 999).map (· + 2)).length = 1001 := by simp

theorem exHolds (conv : Bytes → UInt8) : FileHolds byteCodec conv exPermFiles "a.bin" 1000 1000 [⟨999, 3, 7⟩, ⟨0, 999, 5⟩] := .inl ⟨⟨['a'], by decide⟩, rfl⟩

theorem exPick : pickBlockSize 32 exMachine.logbeta 1000 1000 exMachine.valSize exMachine.workers = .ok 32 := by decide +kernel

example := C66_pbench exMachine byteCodec (fun _ => 0) 1 exPermFiles "a.bin" 1000 1000 [⟨999, 3, 7⟩, ⟨0, 999, 5⟩] (by decide) false "q" _ 32 (.inr (by decide))
  (by decide) (by decide) (by decide) exPick (by decide) (by simp) (by decide) (by decide) (by decide) (by simp) (by decide) byteCodec_exact (by decide)
  (exHolds _) rfl (by rw [exSwap_len]; decide) (by rw [exSwap_len]; decide) (by rw [exSwap_len]; decide)
  (by
    rw [exSwap_len]
    refine ⟨fun k hk => ?_, fun j k hj hk h => ?_⟩
    · simp only [exSwap_get k hk]; split_ifs <;> omega
    · simp only [exSwap_get k hk, exSwap_get j hj] at h; split_ifs at h <;> omega)
  (by
    rw [exSwap_len]
    intro k hk
    rw [exSwap_get k hk]
    split_ifs <;> omega)

example := C67_refused exMachine byteCodec (fun _ => 0) 1 exFiles false (fun _ => 8) byteCodec_exact "none.bin" "p" "16" "16" [] (.inl rfl) .csr .cgbr
example := C67_refused exMachine byteCodec (fun _ => 0) 1 exFiles false (fun _ => 8) byteCodec_exact "h.bin" "p" "16" "16" []
  (.inr (.inr ⟨⟨['h'], by decide⟩, 3, 3, [⟨2, 1, 7⟩], 15, by decide, by decide, by decide, by decide, rfl⟩)) .csr2 .csbr
example := C67_small exMachine byteCodec (fun _ => 0) 1 exFiles byteCodec_exact (by decide) "s.bin" 3 3 [⟨2, 1, 7⟩] .csbr2 (by decide) (by decide)
  (by decide) (by decide) (by decide) (by decide) (by decide) (.inl ⟨⟨['s'], by decide⟩, rfl⟩)
example := C67_pbench_no_permutation exMachine byteCodec (fun _ => 0) 1 exPermFiles false byteCodec_exact (by decide) "a.bin" "none" 1000 1000 _ 32 exPick
  (by decide) (by decide) (by simp) (by decide) (exHolds _) (.inl rfl)
/-- The permutation [1, 0]. -/
example := C67_pbench_short_permutation exMachine byteCodec (fun _ => 0) 1 (exPermFiles.set "z" (packed (idx 4) [1, 0])) false byteCodec_exact (by decide)
  "a.bin" "z" 1000 1000 _ 32 exPick (by decide) (by decide) (by simp) (by decide) (.inl ⟨⟨['a'], by decide⟩, rfl⟩) [1, 0] rfl (by decide) (by decide)
  ⟨by decide, fun j k hj hk => (by decide : ∀ j < 2, ∀ k < 2, [1, 0].getD j 0 = [1, 0].getD k 0 → j = k) j hj k hk⟩ ⟨_, List.mem_cons_self, by decide⟩
example := C67_cswr_zero exMachine byteCodec (fun _ => 0) 1 exPermFiles (fun _ => 0) byteCodec_exact (by decide) "a.bin" "zero" 1000 1000 _ rfl (by decide)
  (by decide) (by simp) (by decide) (exHolds _)
example := C67_no_iterations { exMachine with iterations := 0 } byteCodec (fun _ => 0) 1 exPermFiles (fun _ => 8) byteCodec_exact (by decide) "a.bin" ["x"] 1000 1000 _ rfl
  (by decide) (by decide) (by simp) (by decide) (exHolds _)
/-- The block size and the number of blocks the last part of that theorem asks for. -/
example : pickBlockSize 32 exMachine.logbeta 1000 1000 exMachine.valSize exMachine.workers = .ok 32 ∧
    max 1 (1000 / 32) * max 1 (1000 / 32) < 2 ^ 32 := ⟨exPick, by decide⟩
/-- With no iterations and no arguments csr is refused. -/
example := C67_no_iterations_refused { exMachine with iterations := 0 } byteCodec (fun _ => 0) 1 exFiles false (fun _ => 8) rfl [] (1, []) .csr .csbr
  (.inl rfl)
/-- The permutation [2, 1, 0] of the 3 × 3 matrix. -/
example := C67_pbench_small exMachine byteCodec (fun _ => 0) 1 (exFiles.set "z" (packed (idx 4) [2, 1, 0])) false byteCodec_exact (by decide) "s.bin" "z" [2, 1, 0]
  3 3 [⟨2, 1, 7⟩] (by decide) (by decide) (by decide) (by decide) (by decide) (by decide) (by decide) (by decide) (.inl ⟨⟨['s'], by decide⟩, rfl⟩) rfl
  (by decide) (by decide) (by decide)
  ⟨by decide, fun j k hj hk => (by decide : ∀ j < 3, ∀ k < 3, [2, 1, 0].getD j 0 = [2, 1, 0].getD k 0 → j = k) j hj k hk⟩ (by decide)

/-! ### Result -/

/-- Numbers with one that differs from itself. -/
def nanArith : Arith (WithTop Nat) :=
  ⟨fun a b => decide (a = ⊤ ∨ b = ⊤ ∨ a ≠ b), fun _ _ => false, fun a _ => a, fun a _ => a, fun n => n, id, id⟩

example := C69_nan (2 ^ 32) nanArith (fun i => if i = 1 then ⊤ else 4) (fun i => if i = 1 then ⊤ else 4) 3 4 2 1 (by decide) (by decide)
  (by decide) (by decide) rfl (by simp [nanArith])
example := C69_short (2 ^ 32) byteArith (fun _ => 1) (fun _ => 1) 3 2 3 (.inr (by decide)) (by decide)
example := C69_errors (2 ^ 32) (fun a : ℚ => a) (fun i => (i : ℚ)) (fun _ => 1) 3 5 2 (by decide) (by decide) (by decide)
example := C69_mean (fun a : ℚ => a) (fun i => (i : ℚ)) 3 5 (by decide)
example := C69_median (2 ^ 32) (fun a : ℚ => a) [3, 1, 2, 2] (by decide)

example : ∃ rs, resultMain (exEnv 1) exMachine byteCodec (fun _ => 0) 1 exPermFiles ["a.bin"] = .ok (0, rs) := by
  obtain ⟨r1, more, h, -⟩ := C70_result (exEnv 1) exMachine byteCodec (fun _ => 0) 1 exPermFiles "a.bin" [] 1000 1000 32 _ byteCodec_exact (by decide)
    (by decide) (by decide) (by decide) (.inr (by decide)) exPick (by decide) (by simp) (by decide) (by decide) (by decide) (by simp) (by decide) (exHolds _)
  have := C70_exact (exEnv 1) exMachine byteCodec (fun _ => 0) 1 exPermFiles "a.bin" [] 1000 1000 32 _ byteCodec_exact (by decide)
    (by decide) exPick (by decide) (by simp) (by decide) (by decide) (by decide) (by simp) (by decide) (exHolds _) _ _ h
  exact ⟨_, h⟩
example := C70_small (exEnv 0) exMachine byteCodec (fun _ => 0) 1 exFiles "s.bin" [] 3 3 [⟨2, 1, 7⟩] byteCodec_exact (by decide) (by decide)
  (by decide) (by decide) (by decide) (by decide) (by decide) (by decide) (.inl ⟨⟨['s'], by decide⟩, rfl⟩)
example := C70_refused (exEnv 0) exMachine byteCodec (fun _ => 0) 1 exFiles "none.bin" [] byteCodec_exact (.inl rfl)

/-! ### block.cpp -/

/-- Four labelled files (one with an entry in row 70000, one of 50000 × 50000), one without labels, and half of one. -/
def exBlockFiles : FS := fun name =>
  if name = "d/size64ratio0.05.bin" then some (binFile 4 byteCodec 64 64 [⟨63, 3, 7⟩, ⟨0, 9, 5⟩, ⟨63, 3, 1⟩])
  else if name = "size8ratio1.5.bin" then some (binFile 4 byteCodec 8 4 [⟨2, 1, 7⟩])
  else if name = "size9ratio2.5.bin" then some (binFile 4 byteCodec 70001 4 [⟨2, 1, 7⟩, ⟨70000, 1, 7⟩])
  else if name = "size7ratio2.5.bin" then some (binFile 4 byteCodec 50000 50000 [⟨2, 1, 7⟩, ⟨40000, 1, 7⟩])
  else if name = "size/x.bin" then some (binFile 4 byteCodec 3 2 [⟨2, 1, 7⟩])
  else if name = "h.bin" then some ((binFile 4 byteCodec 3 3 [⟨2, 1, 7⟩]).take 15)
  else none

def exB1 : BlockInput UInt8 := ⟨"d/size64ratio0.05.bin", 64, chars "0.05", 64, 64, [⟨63, 3, 7⟩, ⟨0, 9, 5⟩, ⟨63, 3, 1⟩]⟩
def exB2 : BlockInput UInt8 := ⟨"size8ratio1.5.bin", 8, chars "1.5", 8, 4, [⟨2, 1, 7⟩]⟩
def exB3 : BlockInput UInt8 := ⟨"size9ratio2.5.bin", 9, chars "2.5", 70001, 4, [⟨2, 1, 7⟩, ⟨70000, 1, 7⟩]⟩
def exB4 : BlockInput UInt8 := ⟨"size7ratio2.5.bin", 7, chars "2.5", 50000, 50000, [⟨2, 1, 7⟩, ⟨40000, 1, 7⟩]⟩
def exB5 : BlockInput UInt8 := ⟨"size/x.bin", 0, [], 3, 2, [⟨2, 1, 7⟩]⟩

theorem exB1_ok : exB1.Ok byteCodec (fun _ => 0) exBlockFiles :=
  ⟨⟨.inl ⟨⟨"d/size64ratio0.05".toList, by decide⟩, rfl⟩, by decide, by decide, by decide, by decide⟩,
    ⟨chars "d/", chars "64", chars "0", chars "05", chars "bin", by decide +kernel, .inr ⟨chars "d", by decide +kernel⟩, by decide +kernel,
      by simp only [Unsigned, Digits]; decide +kernel, by decide, by decide +kernel, by decide +kernel, by simp only [Digits]; decide +kernel,
      by simp only [Digits]; decide +kernel⟩, by unfold BlockInput.Small; decide, by decide⟩
theorem exB2_ok : exB2.Ok byteCodec (fun _ => 0) exBlockFiles :=
  ⟨⟨.inl ⟨⟨"size8ratio1.5".toList, by decide⟩, rfl⟩, by decide, by decide, by decide, by decide⟩,
    ⟨[], chars "8", chars "1", chars "5", chars "bin", by decide +kernel, .inl rfl, by decide +kernel,
      by simp only [Unsigned, Digits]; decide +kernel, by decide, by decide +kernel, by decide +kernel, by simp only [Digits]; decide +kernel,
      by simp only [Digits]; decide +kernel⟩, by unfold BlockInput.Small; decide, by decide⟩
theorem exB3_read : exB3.Readable byteCodec (fun _ => 0) exBlockFiles ∧ Labelled exB3.name exB3.size exB3.ratio :=
  ⟨⟨.inl ⟨⟨"size9ratio2.5".toList, by decide⟩, rfl⟩, by decide, by decide, by decide, by decide⟩,
    ⟨[], chars "9", chars "2", chars "5", chars "bin", by decide +kernel, .inl rfl, by decide +kernel,
      by simp only [Unsigned, Digits]; decide +kernel, by decide, by decide +kernel, by decide +kernel, by simp only [Digits]; decide +kernel,
      by simp only [Digits]; decide +kernel⟩⟩
theorem exB4_read : exB4.Readable byteCodec (fun _ => 0) exBlockFiles ∧ Labelled exB4.name exB4.size exB4.ratio :=
  ⟨⟨.inl ⟨⟨"size7ratio2.5".toList, by decide⟩, rfl⟩, by decide, by decide, by decide, by decide⟩,
    ⟨[], chars "7", chars "2", chars "5", chars "bin", by decide +kernel, .inl rfl, by decide +kernel,
      by simp only [Unsigned, Digits]; decide +kernel, by decide, by decide +kernel, by decide +kernel, by simp only [Digits]; decide +kernel,
      by simp only [Digits]; decide +kernel⟩⟩
theorem exB5_read : exB5.Readable byteCodec (fun _ => 0) exBlockFiles ∧ Unlabelled exB5.name :=
  ⟨⟨.inl ⟨⟨"size/x".toList, by decide⟩, rfl⟩, by decide, by decide, by decide, by decide⟩,
    ⟨chars "size/", chars "x.bin", by decide +kernel, .inr ⟨chars "size", by decide +kernel⟩, by decide +kernel, by decide +kernel⟩⟩
theorem exB6 : Unusable byteCodec exBlockFiles "h.bin" :=
  .inr (.inr ⟨⟨['h'], by decide⟩, 3, 3, [⟨2, 1, 7⟩], 15, by decide, by decide, by decide, by decide, rfl⟩)
theorem exB12 : ∀ i ∈ [exB1, exB2], i.Ok byteCodec (fun _ => 0) exBlockFiles := by
  intro i hi
  simp only [List.mem_cons, List.not_mem_nil, or_false] at hi
  rcases hi with rfl | rfl
  · exact exB1_ok
  · exact exB2_ok
theorem uint8_zero (a v : UInt8) : a + v * 0 = a := by simp

example := C75_reports uint8_zero exMachine byteCodec byteCodec_exact (fun _ => 0) 1 (by decide) exBlockFiles [exB1, exB2] (by simp) exB12
example := C75_later_unusable uint8_zero exMachine byteCodec byteCodec_exact (fun _ => 0) 1 (by decide) exBlockFiles [exB1, exB2] (by simp)
  exB12 "h.bin" ["size8ratio1.5.bin"] exB6
example := C75_stale_labels uint8_zero exMachine byteCodec byteCodec_exact (fun _ => 0) 1 (by decide) exBlockFiles [exB1, exB2] (by simp)
  exB12 exB5 exB5_read.1 (by unfold BlockInput.Small; decide) (by decide) exB5_read.2
example := C75_too_large uint8_zero exMachine byteCodec byteCodec_exact (fun _ => 0) 1 (by decide) exBlockFiles [exB1, exB2]
  exB12 exB3 exB3_read.1 (by unfold BlockInput.Small; decide) exB3_read.2 []
example := C75_area uint8_zero exMachine byteCodec byteCodec_exact (fun _ => 0) 1 (by decide) exBlockFiles [exB1, exB2]
  exB12 exB4 exB4_read.1 (by unfold BlockInput.Small; decide) exB4_read.2 (by decide) []
example := C75_first_unusable exMachine byteCodec byteCodec_exact (fun _ => 0) 1 exBlockFiles "h.bin" ["size8ratio1.5.bin"] exB6
example := C75_unlabelled exMachine byteCodec byteCodec_exact (fun _ => 0) 1 (by decide) exBlockFiles exB5 exB5_read.1 exB5_read.2 []

end Gsb
