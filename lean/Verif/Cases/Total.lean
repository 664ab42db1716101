import Verif.Cases.Par
import Verif.Props.Total
import Mathlib.Tactic.NormNum
import Mathlib.Tactic.NormNum.Prime
import Mathlib.RingTheory.Int.Basic
/-
Concrete cases for C76 and C77: a matrix of binary32 numbers.
-/
namespace Gsb

/-- The binary32 number nearest to `q`. -/
noncomputable def f32 (q : ℚ) : Binary32 := Flt.ofExact q

theorem f32_fin {q : ℚ} (h : |q| ≤ 2 ^ (127 : ℤ)) : (f32 q).fin := ofExact_fin (by decide) (by decide) h

/-- Rounding does happen: a tenth is not representable. -/
example : (f32 (1 / 10)).fin ∧ (f32 (1 / 10)).val ≠ 1 / 10 := by
  have h : (f32 (1 / 10)).fin := f32_fin (by norm_num [abs_of_pos])
  refine ⟨h, ?_⟩
  obtain ⟨⟨m, e, h1, -⟩, h2⟩ := ofExact_some h
  intro hv
  have : ((roundTo 24 (-149) (1 / 10) : ℚ) : ℝ) = 1 / 10 := (val_ofExact h).symm.trans hv
  have hq : roundTo 24 (-149) (1 / 10) = 1 / 10 := by
    have h10 : ((1 / 10 : ℚ) : ℝ) = 1 / 10 := by norm_num
    rw [← h10] at this
    exact_mod_cast this
  rw [hq] at h1
  have h5 : (10 * m * 2 ^ e : ℚ) = 1 := by rw [mul_assoc, ← h1]; norm_num
  rcases le_or_gt 0 e with he | he
  · obtain ⟨d, rfl⟩ := Int.eq_ofNat_of_zero_le he
    have h6 : 10 * m * 2 ^ d = 1 := by exact_mod_cast h5
    rw [mul_assoc] at h6
    omega
  · obtain ⟨d, hd⟩ : ∃ d : ℕ, e = -d := ⟨(-e).toNat, by omega⟩
    rw [hd, zpow_neg, zpow_natCast, mul_inv_eq_iff_eq_mul₀ (by positivity), one_mul] at h5
    have h6 : 10 * m = 2 ^ d := by exact_mod_cast h5
    have h7 : (5 : ℤ) ∣ 2 ^ d := ⟨2 * m, by rw [← h6]; ring⟩
    have h8 := (Int.prime_iff_natAbs_prime.2 (by norm_num : Nat.Prime (5 : ℤ).natAbs)).dvd_of_dvd_pow h7
    omega

/-- Tenths in the places of `exB` and of `exA`. -/
noncomputable def exDF : List (Element Binary32) := exB.map fun e => ⟨e.row, e.col, f32 (e.val / 10), 0⟩
noncomputable def exEF : List (Element Binary32) := exA.map fun e => ⟨e.row, e.col, f32 (e.val / 10), 9⟩
noncomputable def exBF : List (Ent Binary32) := exB.map fun e => ⟨e.row, e.col, f32 (e.val / 10)⟩
noncomputable def exXF : Nat → Binary32 := fun j => f32 (1 / (j + 3))
noncomputable def exYF : Nat → Binary32 := fun i => f32 (i / 7)

theorem ieee32 : Rounded Binary32 Flt.val Flt.fin (2 ^ (-((24 : Nat) : ℤ))) (2 ^ ((-149 : ℤ) - 1)) ∧
    NoOverflow Binary32 Flt.val Flt.fin (2 ^ (127 : ℤ)) := C77_ieee 24 (-149) 127 (by decide) (by decide)
example : Rounded Binary64 Flt.val Flt.fin (2 ^ (-((53 : Nat) : ℤ))) (2 ^ ((-1074 : ℤ) - 1)) ∧
    NoOverflow Binary64 Flt.val Flt.fin (2 ^ (1023 : ℤ)) := C77_ieee 53 (-1074) 1023 (by decide) (by decide)

theorem exDF_in : InRange (ents exDF) 4 3 := by simp [exDF, exB, ents, NZ.toEnt, InRange]
theorem exEF_in : InRange (ents exEF) 4 3 := by simp [exEF, exA, ents, NZ.toEnt, InRange]
theorem exBF_in : InRange (ents exBF) 4 3 := by simp [exBF, exB, ents, NZ.toEnt, InRange]
theorem exDF_dist : Distinct (ents exDF) := by simp [exDF, exB, ents, NZ.toEnt, Distinct]
theorem exBF_dist : Distinct (ents exBF) := by simp [exBF, exB, ents, NZ.toEnt, Distinct]
theorem exDF_len : exDF.length = 4 := rfl
theorem exEF_len : exEF.length = 6 := rfl
theorem exDF_ne : exDF ≠ [] := by simp [exDF, exB]
theorem exEF_ne : exEF ≠ [] := by simp [exEF, exA]

/-! ### C76 -/

example := C76_cgbr (2 ^ 32) (2 ^ 16) (2 ^ 16 - 1) 8 4 3 exChoose (fun _ _ _ => true) exDF _ _ _ _ exR exC (by decide) exR_small exC_small
  (fun _ _ _ h1 h2 _ _ => small_square h1 h2) (.inr exDF_dist) (by decide) exDF_ne (by rw [exDF_len]; decide) (by decide) (by decide)
  (by decide) (by decide) (by decide) exDF_in
example := C76_cgbr_const (2 ^ 32) (2 ^ 16) (2 ^ 16 - 1) 8 4 3 2 (2 ^ 15) exChoose (fun _ _ _ => false) exDF (by decide) (by decide) (by decide)
  (by decide) (by decide) (fun _ _ _ h1 h2 _ _ => small_square h1 h2) (.inr exDF_dist) (by decide) exDF_ne (by rw [exDF_len]; decide)
  (by decide) (by decide) (by decide) exDF_in
example := C76_cgbr2 (2 ^ 32) (2 ^ 16) (2 ^ 16 - 1) 8 4 3 (chooseFactory (2 ^ 32) 4 4 2) True exDF _ _ _ _ exR exC (by decide)
  exR_small exC_small (fun _ _ _ h1 h2 _ _ => ⟨small_square h1 h2, trivial⟩) (fun _ => exDF_dist) (by decide) exDF_ne
  (by rw [exDF_len]; decide) (by decide) (by decide) (by decide) (by decide) (by decide) exDF_in
example := C76_dense (2 ^ 32) 4 3 exBF (by decide) exBF_in exBF_dist exXF exYF
example := C76_semiring exA 4 3 exX exY (spmvExact exA exX exY) ((rowTotals_exact exA 4 exX exY)) 3 (by decide)

/-! ### C77 -/

example := C77_bound ieee32.1 (ents exEF) 4 3 exXF exYF _ (rowTotals_exact _ 4 exXF exYF)
example := C77_csr ieee32.1 (2 ^ 32) 4 3 exEF (by rw [exEF_len]; decide) (by decide) (by decide) exEF_in 3 (by decide) exXF exYF
example := C77_csr2 ieee32.1 (2 ^ 32) 4 3 exEF (by rw [exEF_len]; decide) (by decide) exEF_in 3 (by decide) exXF exYF
example := C77_coo ieee32.1 (2 ^ 32) 256 4 3 exEF exEF_in (by simp [exEF, exA, ents, NZ.toEnt]) exXF exYF
example := C77_cswr ieee32.1 (2 ^ 32) 256 4 3 2 exEF (by decide) (by decide) (by rw [exEF_len]; decide) (by decide) exEF_in exXF exYF
example := C77_csbr ieee32.1 (2 ^ 32) 8 4 3 exEF _ _ _ _ exR exC (by decide) exEF_ne (by rw [exEF_len]; decide) (by decide) (by decide) (by decide)
  (by decide) (by decide) exEF_in 3 (by decide) exXF exYF
example := C77_csbr2 ieee32.1 (2 ^ 32) 4 3 exEF _ _ _ _ exR exC exEF_ne (by rw [exEF_len]; decide) (by decide) (by decide) (by decide)
  (by decide) (by decide) exEF_in 3 (by decide) exXF exYF
example := C77_csbr3 ieee32.1 (2 ^ 32) 256 4 3 2 exEF (by decide) (by decide) exEF_ne (by rw [exEF_len]; decide) (by decide) (by decide)
  (by decide) exEF_in 3 (by decide) exXF exYF
example := C77_cgbr ieee32.1 (2 ^ 32) (2 ^ 16) (2 ^ 16 - 1) 8 4 3 exChoose (fun _ _ _ => true) exDF _ _ _ _ exR exC (by decide) exR_small exC_small
  (fun _ _ _ h1 h2 _ _ => small_square h1 h2) (.inr exDF_dist) (by decide) exDF_ne (by rw [exDF_len]; decide) (by decide) (by decide)
  (by decide) (by decide) (by decide) exDF_in 3 (by decide) exXF exYF
example (balanced : Bool) := C77_cgbr2 ieee32.1 (2 ^ 32) (2 ^ 16) (2 ^ 16 - 1) 8 4 3 (chooseFactory (2 ^ 32) 4 4 2) True exDF _ _ _ _ exR exC
  (by decide) exR_small exC_small (fun _ _ _ h1 h2 _ _ => ⟨small_square h1 h2, trivial⟩) (fun _ => exDF_dist) (by decide) exDF_ne
  (by rw [exDF_len]; decide) (by decide) (by decide) (by decide) (by decide) (by decide) exDF_in 3 (by decide) balanced exXF exYF
example := C77_dense ieee32.1 (2 ^ 32) 4 3 exBF (by decide) exBF_in exBF_dist exXF exYF

theorem f32_int (n : ℤ) (h : |n| < 2 ^ 24) : (f32 n).val = n := by
  have hr : Representable 24 (-149) 127 (n : ℚ) := by
    refine ⟨n, 0, by simp, h, by decide, ?_⟩
    have : (|(n : ℚ)|) < 2 ^ 24 := by exact_mod_cast h
    refine this.trans ?_
    norm_num
  have hf : (f32 n).fin := f32_fin (by
    have : (|(n : ℚ)|) < 2 ^ 24 := by exact_mod_cast h
    refine this.le.trans ?_
    norm_num)
  rw [f32, val_ofExact hf, roundTo_representable hr]
  simp

/-- A row `3 5` times `1 2` onto `7`: finite whatever the order and the additional zeroes. -/
example (y' : Nat → Binary32) (h : RowTotals (zeroPad 2 (fun j => f32 ((j + 1 : ℤ) : ℚ))) [⟨0, 0, f32 ((3 : ℤ) : ℚ)⟩, ⟨0, 1, f32 ((5 : ℤ) : ℚ)⟩] 1
    (fun j => f32 ((j + 1 : ℤ) : ℚ)) (fun _ => f32 ((7 : ℤ) : ℚ)) y') : (y' 0).fin := by
  refine C77_finite ieee32.1 ieee32.2 _ 1 2 _ _ y' h (by positivity) ?_ (by decide) 0 (by decide) ?_ ?_ ?_
  · intro c hc
    interval_cases c
    · exact f32_fin (by norm_num)
    · exact f32_fin (by norm_num)
  · exact f32_fin (by norm_num)
  · intro e he _
    simp only [List.mem_cons, List.not_mem_nil, or_false] at he
    rcases he with rfl | rfl
    · exact f32_fin (by norm_num)
    · exact f32_fin (by norm_num)
  · simp only [sizeRow, rowEntries, List.filter_cons, List.filter_nil, beq_self_eq_true, if_true, List.length_cons, List.length_nil,
      List.map_cons, List.map_nil, List.sum_cons, List.sum_nil]
    rw [f32_int 7 (by decide), f32_int 3 (by decide), f32_int 5 (by decide), f32_int _ (by decide), f32_int _ (by decide)]
    norm_num

/-- CSR and CGBR on the same row agree within twice the bound. -/
example (y1 y2 : Nat → Binary32) (h1 : RowTotals (zeroPad 3 exXF) (ents exDF) 4 exXF exYF y1)
    (h2 : RowTotals (zeroPad 3 exXF) (ents exDF) 4 exXF exYF y2) (f1 : (y1 1).fin) (f2 : (y2 1).fin) :=
  C77_agree (ents exDF) 4 exXF exYF y1 y2 (C77_bound ieee32.1 _ 4 3 exXF exYF _ h1) (C77_bound ieee32.1 _ 4 3 exXF exYF _ h2) 1 (by decide) f1 f2

/-- An infinity in `x` in a column where the row has no entry: the dense product of every row is infinite or NaN. -/
example := C77_dense_infinite ieee32.1 (2 ^ 32) 4 3 exBF (by decide) exBF_in (fun _ => (none : Binary32)) exYF 2 (by decide) (fun h => h rfl)

/-- `2` and infinities. -/
noncomputable def exXI : Nat → Binary32
  | 0 => f32 ((2 : ℤ) : ℚ)
  | _ + 1 => (none : Option _)

/-- The same row in CSR, whose result is finite. -/
example (y' : Nat → Binary32) (h : RowTotals noPad [⟨0, 0, f32 ((3 : ℤ) : ℚ)⟩] 1
    exXI (fun _ => f32 ((7 : ℤ) : ℚ)) y') : (y' 0).fin := by
  refine C77_finite_sparse ieee32.1 ieee32.2 _ 1 _ _ y' h 0 (by decide) ?_ ?_ ?_
  · exact f32_fin (by norm_num)
  · intro e he _
    simp only [List.mem_cons, List.not_mem_nil, or_false] at he
    subst he
    exact ⟨f32_fin (by norm_num), f32_fin (by norm_num)⟩
  · simp only [sizeRow, rowEntries, List.filter_cons, List.filter_nil, beq_self_eq_true, if_true, List.length_cons, List.length_nil,
      List.map_cons, List.map_nil, List.sum_cons, List.sum_nil]
    rw [show exXI 0 = f32 ((2 : ℤ) : ℚ) from rfl]
    rw [f32_int 7 (by decide), f32_int 3 (by decide), f32_int 2 (by decide)]
    norm_num

/-- Real numbers are not rounded. -/
theorem rounded_real : Rounded ℝ id (fun _ => True) 0 0 where
  u_nonneg := le_refl _
  η_nonneg := le_refl _
  zero := rfl
  add_fin := fun _ _ _ => ⟨trivial, trivial⟩
  mul_fin := fun _ _ _ => ⟨trivial, trivial⟩
  add := fun _ _ _ => by simp
  mul := fun _ _ _ => by simp
  add_zero := fun _ _ _ h => by simpa using h
  zero_add := fun _ _ _ h => by simpa using h
  zero_mul := fun _ _ => by simp

example := C77_exact rounded_real [⟨0, 0, 3⟩, ⟨1, 1, 5⟩, ⟨0, 1, 4⟩] 2 2 (fun j => j) (fun _ => 1) _
  ((rowTotals_exact (T := ℝ) _ 2 _ _).mono (pad := noPad) (fun _ h => False.elim h)) 0 (by decide) trivial

end Gsb
