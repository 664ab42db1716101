import Verif.Cases.Drivers
import Verif.Props.DriversTotal
import Mathlib.Tactic.NormNum
/-
Concrete cases for the drivers in arithmetic without laws: bytes of which 255 stands for infinity.
-/
namespace Gsb

/-- A byte; 255 is infinity. -/
structure Sat where
  v : UInt8
  deriving DecidableEq

/-- Sums that do not fit are infinite. -/
instance : Add Sat := ⟨fun a b => ⟨if a.v.toNat + b.v.toNat < 255 then a.v + b.v else 255⟩⟩
/-- Products that do not fit are infinite, and so are those with infinity. -/
instance : Mul Sat := ⟨fun a b => ⟨if a.v ≠ 255 ∧ b.v ≠ 255 ∧ a.v.toNat * b.v.toNat < 255 then a.v * b.v else 255⟩⟩
instance : Zero Sat := ⟨⟨0⟩⟩

theorem sat_add (a b : Sat) (h : (a + b).v ≠ 255) : a.v.toNat + b.v.toNat < 255 ∧ (a + b).v.toNat = a.v.toNat + b.v.toNat := by
  have e : (a + b).v = if a.v.toNat + b.v.toNat < 255 then a.v + b.v else 255 := rfl
  rw [e] at h ⊢
  split_ifs at h ⊢ with h1
  · refine ⟨h1, ?_⟩
    rw [UInt8.toNat_add]
    omega
  · exact absurd rfl h

theorem sat_mul (a b : Sat) (h : (a * b).v ≠ 255) : a.v ≠ 255 ∧ b.v ≠ 255 ∧ (a * b).v.toNat = a.v.toNat * b.v.toNat := by
  have e : (a * b).v = if a.v ≠ 255 ∧ b.v ≠ 255 ∧ a.v.toNat * b.v.toNat < 255 then a.v * b.v else 255 := rfl
  rw [e] at h ⊢
  split_ifs at h ⊢ with h1
  · refine ⟨h1.1, h1.2.1, ?_⟩
    rw [UInt8.toNat_mul]
    have := h1.2.2
    omega
  · exact absurd rfl h

theorem sat_fin {a : Sat} (h : a.v.toNat < 255) : a.v ≠ 255 := fun e => by rw [e] at h; exact absurd h (by decide)

/-- Saturating bytes satisfy the hypothesis of C77, without rounding. -/
theorem sat_rounded : Rounded Sat (fun a => (a.v.toNat : ℝ)) (fun a => a.v ≠ 255) 0 0 where
  u_nonneg := le_refl _
  η_nonneg := le_refl _
  zero := by show ((0 : UInt8).toNat : ℝ) = 0; norm_num
  add_fin := fun a b h => by have := (sat_add a b h).1; exact ⟨sat_fin (by omega), sat_fin (by omega)⟩
  mul_fin := fun a b h => by have := sat_mul a b h; exact ⟨this.1, this.2.1⟩
  add := fun a b h => by rw [(sat_add a b h).2]; push_cast; simp
  mul := fun a b h => by rw [(sat_mul a b h).2.2]; push_cast; simp
  add_zero := fun a b h h0 => by rw [(sat_add a b h).2]; push_cast; rw [h0, add_zero]
  zero_add := fun a b h h0 => by rw [(sat_add a b h).2]; push_cast; rw [h0, zero_add]
  zero_mul := fun b h => by
    rw [(sat_mul 0 b h).2.2]
    have : (0 : Sat).v.toNat = 0 := rfl
    rw [this]; simp

/-- One byte each. -/
def satCodec : Codec Sat := ⟨1, fun a => [a.v], fun l => ⟨l.headD 0⟩⟩

theorem satCodec_exact : satCodec.Exact (fun _ => True) := ⟨by decide, fun _ => rfl, fun _ _ => rfl⟩

/-- A machine with four workers and two iterations. -/
def satMachine : Machine Sat Nat :=
  ⟨2, 4, 4, fun _ _ => ⟨1⟩, fun _ i => 10 + i, fun t n => t / n, fun _ _ => 12, fun _ _ _ => .coo, fun _ _ _ => false,
    fun _ _ _ => .dense, true⟩

/-- Fresh memory is zero. -/
def satEnv : ResultEnv Sat :=
  ⟨⟨fun a b => decide (a ≠ b), fun _ _ => false, fun a _ => a, fun a _ => a, fun _ => 0, id, id⟩, fun _ => 0, fun _ => 0, fun _ => ⟨2⟩,
    fun _ _ _ => .dense, fun _ _ _ => false⟩

/-- A 1000 × 1000 matrix with two entries, and a permutation of 1001 that exchanges 0 and 1. -/
def satFiles : FS := fun name =>
  if name = "a.bin" then some (binFile 4 satCodec 1000 1000 [⟨999, 3, ⟨7⟩⟩, ⟨0, 999, ⟨5⟩⟩])
  else if name = "q" then some (packed (idx 4) ([1, 0] ++ (List.range 999).map (· + 2)))
  else none

theorem satHolds : FileHolds satCodec (fun _ => 0) satFiles "a.bin" 1000 1000 [⟨999, 3, ⟨7⟩⟩, ⟨0, 999, ⟨5⟩⟩] := .inl ⟨⟨['a'], by decide⟩, rfl⟩

theorem satPick : pickBlockSize 32 satMachine.logbeta 1000 1000 satMachine.valSize satMachine.workers = .ok 32 := by decide +kernel

example := C66_blocked_total satMachine satCodec (fun _ => 0) 1 satFiles "a.bin" 1000 1000 _ (by decide) .cgbr 32 ["a.bin"] (.inl rfl)
  (.inl ⟨rfl, .inr (by decide)⟩) (by decide) (by decide) (by decide) satPick (by decide) (by simp) (by decide) (by decide) (by decide) (by simp)
  (by decide) satCodec_exact (by decide) satHolds
example := C66_blocked_total satMachine satCodec (fun _ => 0) 1 satFiles "a.bin" 1000 1000 _ (by decide) .cgbr2 32 ["a.bin", "16", "16"]
  (.inr ⟨_, _, rfl⟩) (.inr ⟨rfl, .inr (by decide)⟩) (by decide) (by decide) (by decide) satPick (by decide) (by simp) (by decide) (by decide)
  (by decide) (by simp) (by decide) satCodec_exact (by decide) satHolds
example := C66_bench_total satMachine satCodec (fun _ => 0) 1 satFiles "a.bin" 1000 1000 _ (by decide) 32
  (.inr (by decide)) (by decide) (by decide) (by decide) satPick (by decide) (by simp) (by decide) (by decide)
  (by decide) (by simp) (by decide) satCodec_exact (by decide) satHolds
example := C66_pbench_total satMachine satCodec (fun _ => 0) 1 satFiles "a.bin" 1000 1000 _ (by decide) false "q" _ 32
  (.inr (by decide)) (by decide) (by decide) (by decide) satPick (by decide) (by simp) (by decide) (by decide)
  (by decide) (by simp) (by decide) satCodec_exact (by decide) satHolds
  rfl (by rw [exSwap_len]; decide) (by rw [exSwap_len]; decide) (by rw [exSwap_len]; decide)
  (by
    rw [exSwap_len]
    refine ⟨fun k hk => ?_, fun j k hj hk h => ?_⟩
    · simp only [exSwap_get k hk]; split_ifs <;> omega
    · simp only [exSwap_get k hk, exSwap_get j hj] at h; split_ifs at h <;> omega)
  (by
    rw [exSwap_len]
    intro k hk
    rw [exSwap_get k hk]
    split_ifs <;> omega)
example := C70_total satEnv satMachine satCodec (fun _ => 0) 1 satFiles "a.bin" [] 1000 1000 32 _ satCodec_exact (by decide)
    (by decide) (by decide) (by decide) (.inr (by decide)) satPick (by decide) (by simp) (by decide) (by decide) (by decide) (by simp) (by decide) satHolds
example := C70_float satEnv satMachine satCodec (fun _ => 0) 1 satFiles "a.bin" [] 1000 1000 32 _ sat_rounded satCodec_exact (by decide)
    (by decide) (by decide) (by decide) (.inr (by decide)) satPick (by decide) (by simp) (by decide) (by decide) (by decide) (by simp) (by decide) satHolds
    (fun _ => ⟨rfl, rfl⟩)

end Gsb
