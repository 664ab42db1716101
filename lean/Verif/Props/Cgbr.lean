import Verif.Proof.CgbrTop
import Verif.Model.Choice
import Mathlib.Tactic.Linarith
/-
C11 (CGBR), C12 (CGBR2), C51 (block type selection).
-/
namespace Gsb
variable {T : Type}

theorem blocksAtMost_const {n size S : Nat} (hs : 0 < size) (hS : 2 * size ≤ S + 1) : BlocksAtMost (constOff n size) S := by
  intro i lo hi h1 h2
  have hl : i + 1 < (constOff n size).length := (List.getElem?_eq_some_iff.1 h2).1
  rw [constOff_length] at hl
  have hlo : lo = i * size := by
    rw [constOff_lt (by omega)] at h1; simpa using h1.symm
  by_cases h : i + 1 < constBlocks n size
  · rw [constOff_lt h] at h2
    have hhi : hi = (i + 1) * size := by simpa using h2.symm
    rw [hlo, hhi, Nat.add_mul]; omega
  · have e : i + 1 = constBlocks n size := by omega
    rw [e, constOff_last] at h2
    have hhi : hi = n := by simpa using h2.symm
    have hlt : n < (n / size + 1) * size := by rw [Nat.mul_comm]; exact Nat.lt_mul_div_succ n hs
    have hq : n / size ≤ i + 1 := by
      rw [e]; unfold constBlocks; generalize n / size = q; split <;> omega
    have : (n / size + 1) * size ≤ (i + 1 + 1) * size := Nat.mul_le_mul_right _ (by omega)
    have e3 : (i + 1 + 1) * size = i * size + 2 * size := by ring
    rw [hlo, hhi]; omega

section
variable [NonUnitalNonAssocSemiring T]

/-- **C11**, with a bound `B` on the blocks that may be smaller than what local indices allow: only blocks within it need to fit the
index type when stored densely.  Whatever type is chosen for each block (`choose`) and whatever the balance test answers
(`heavy`), construction succeeds and both kernels compute `y + A x`.  Dense blocks need their size
to fit the index type and no coordinate twice. -/
theorem C11_cgbr_bound (M S B workers rows columns : Nat) (choose : Nat → Nat → Nat → BlockChoice)
    (heavy : Nat → Nat → List Nat → Bool) (es : List (Element T))
    (offR : List Nat) (blockrows : Nat) (offC : List Nat) (blockcols : Nat)
    (PR : Partition offR blockrows rows) (PC : Partition offC blockcols columns)
    (hBS : B ≤ S) (hSR : BlocksAtMost offR B) (hSC : BlocksAtMost offC B)
    (hdense : ∀ rs cs n, rs ≤ B → cs ≤ B → n ≤ es.length → choose rs cs n = .dense → rs * cs < M)
    (hdup : (∀ rs cs n, choose rs cs n ≠ .dense) ∨ Distinct (ents es))
    (hw : 0 < workers) (hne : es ≠ []) (hlen : 2 * (es.length + 2) ≤ M) (hgrid : blockrows * blockcols < M)
    (hrows : rows + 1 < M) (hcols : columns < M) (hbr : blockrows ≤ rows) (hbc : blockcols ≤ columns)
    (hin : InRange (ents es) rows columns) :
    ∃ A es', cooToCgbr M S workers choose heavy es rows columns offR blockrows offC blockcols = .ok (A, es') ∧
      ∀ nx ny, columns ≤ nx → rows ≤ ny → ∀ x y : Nat → T,
        A.spmv M (Buf.full nx x) (Buf.full ny y) = .ok (Buf.full ny (spmvSum (ents es) x y)) ∧
        A.spmvSerial M (Buf.full nx x) (Buf.full ny y) = .ok (Buf.full ny (spmvSum (ents es) x y)) := by
  obtain ⟨res, b, P, h1, h2, h3, h4⟩ := cgbr_mainB M S B workers rows columns choose heavy es offR blockrows offC blockcols PR PC
    hBS hSR hSC hdense hdup hw hne hlen hgrid hrows hcols hbr hbc hin
  exact ⟨_, _, h1, fun nx ny hnx hny x y => cgbr_both PR PC hne hlen hgrid hrows hcols hbr hbc hin h2 h3 h4 nx ny hnx hny x y⟩

/-- **C11.** Whatever type is chosen for each block (`choose`) and whatever the balance test answers
(`heavy`), construction succeeds and both kernels compute `y + A x`.  Dense blocks need their size
to fit the index type and no coordinate twice. -/
theorem C11_cgbr_spmv (M S workers rows columns : Nat) (choose : Nat → Nat → Nat → BlockChoice)
    (heavy : Nat → Nat → List Nat → Bool) (es : List (Element T))
    (offR : List Nat) (blockrows : Nat) (offC : List Nat) (blockcols : Nat)
    (PR : Partition offR blockrows rows) (PC : Partition offC blockcols columns)
    (hSR : BlocksAtMost offR S) (hSC : BlocksAtMost offC S)
    (hdense : ∀ rs cs n, rs ≤ S → cs ≤ S → n ≤ es.length → choose rs cs n = .dense → rs * cs < M)
    (hdup : (∀ rs cs n, choose rs cs n ≠ .dense) ∨ Distinct (ents es))
    (hw : 0 < workers) (hne : es ≠ []) (hlen : 2 * (es.length + 2) ≤ M) (hgrid : blockrows * blockcols < M)
    (hrows : rows + 1 < M) (hcols : columns < M) (hbr : blockrows ≤ rows) (hbc : blockcols ≤ columns)
    (hin : InRange (ents es) rows columns) :
    ∃ A es', cooToCgbr M S workers choose heavy es rows columns offR blockrows offC blockcols = .ok (A, es') ∧
      ∀ nx ny, columns ≤ nx → rows ≤ ny → ∀ x y : Nat → T,
        A.spmv M (Buf.full nx x) (Buf.full ny y) = .ok (Buf.full ny (spmvSum (ents es) x y)) ∧
        A.spmvSerial M (Buf.full nx x) (Buf.full ny y) = .ok (Buf.full ny (spmvSum (ents es) x y)) :=
  C11_cgbr_bound M S S workers rows columns choose heavy es offR blockrows offC blockcols PR PC (Nat.le_refl S) hSR hSC hdense hdup hw hne hlen
    hgrid hrows hcols hbr hbc hin

/-- C11 for constant block sizes, with a bound on the blocks: a last block may have up to `2 * size - 1` rows. -/
theorem C11_cgbr_const_bound (M S B workers rows columns brSize bcSize : Nat) (choose : Nat → Nat → Nat → BlockChoice)
    (heavy : Nat → Nat → List Nat → Bool) (es : List (Element T))
    (hbs1 : 0 < brSize) (hbs2 : 0 < bcSize) (hBS : B ≤ S) (hS1 : 2 * brSize ≤ B + 1) (hS2 : 2 * bcSize ≤ B + 1)
    (hdense : ∀ rs cs n, rs ≤ B → cs ≤ B → n ≤ es.length → choose rs cs n = .dense → rs * cs < M)
    (hdup : (∀ rs cs n, choose rs cs n ≠ .dense) ∨ Distinct (ents es))
    (hw : 0 < workers) (hne : es ≠ []) (hlen : 2 * (es.length + 2) ≤ M)
    (hgrid : max 1 (rows / brSize) * max 1 (columns / bcSize) < M)
    (hrows : rows + 1 < M) (hcols : columns + 1 < M) (hin : InRange (ents es) rows columns) :
    ∃ A es', cooToCgbrConst M S workers choose heavy es rows columns brSize bcSize = .ok (A, es') ∧
      ∀ nx ny, columns ≤ nx → rows ≤ ny → ∀ x y : Nat → T,
        A.spmv M (Buf.full nx x) (Buf.full ny y) = .ok (Buf.full ny (spmvSum (ents es) x y)) ∧
        A.spmvSerial M (Buf.full nx x) (Buf.full ny y) = .ok (Buf.full ny (spmvSum (ents es) x y)) := by
  obtain ⟨e0, he0⟩ := List.exists_mem_of_ne_nil es hne
  have h0 := hin _ (List.mem_map_of_mem (f := NZ.toEnt) he0)
  have hb1 : constBlocks rows brSize = max 1 (rows / brSize) := by
    unfold constBlocks; generalize rows / brSize = q; split <;> omega
  have hb2 : constBlocks columns bcSize = max 1 (columns / bcSize) := by
    unfold constBlocks; generalize columns / bcSize = q; split <;> omega
  unfold cooToCgbrConst
  rw [constOffsets_spec hbs1 (by omega) hrows, ok_bind, constOffsets_spec hbs2 (by omega) hcols, ok_bind]
  exact C11_cgbr_bound M S B workers rows columns choose heavy es _ _ _ _ (constOff_partition rows brSize)
    (constOff_partition columns bcSize) hBS (blocksAtMost_const hbs1 hS1) (blocksAtMost_const hbs2 hS2) hdense hdup hw hne hlen
    (by rw [hb1, hb2]; exact hgrid) hrows (by omega) (constBlocks_le (by omega)) (constBlocks_le (by omega)) hin

/-- C11 for constant block sizes: a last block may have up to `2 * size - 1` rows. -/
theorem C11_cgbr_const (M S workers rows columns brSize bcSize : Nat) (choose : Nat → Nat → Nat → BlockChoice)
    (heavy : Nat → Nat → List Nat → Bool) (es : List (Element T))
    (hbs1 : 0 < brSize) (hbs2 : 0 < bcSize) (hS1 : 2 * brSize ≤ S + 1) (hS2 : 2 * bcSize ≤ S + 1)
    (hdense : ∀ rs cs n, rs ≤ S → cs ≤ S → n ≤ es.length → choose rs cs n = .dense → rs * cs < M)
    (hdup : (∀ rs cs n, choose rs cs n ≠ .dense) ∨ Distinct (ents es))
    (hw : 0 < workers) (hne : es ≠ []) (hlen : 2 * (es.length + 2) ≤ M)
    (hgrid : max 1 (rows / brSize) * max 1 (columns / bcSize) < M)
    (hrows : rows + 1 < M) (hcols : columns + 1 < M) (hin : InRange (ents es) rows columns) :
    ∃ A es', cooToCgbrConst M S workers choose heavy es rows columns brSize bcSize = .ok (A, es') ∧
      ∀ nx ny, columns ≤ nx → rows ≤ ny → ∀ x y : Nat → T,
        A.spmv M (Buf.full nx x) (Buf.full ny y) = .ok (Buf.full ny (spmvSum (ents es) x y)) ∧
        A.spmvSerial M (Buf.full nx x) (Buf.full ny y) = .ok (Buf.full ny (spmvSum (ents es) x y)) :=
  C11_cgbr_const_bound M S S workers rows columns brSize bcSize choose heavy es hbs1 hbs2 (Nat.le_refl S) hS1 hS2 hdense hdup hw hne hlen
    hgrid hrows hcols hin

/-- C11 as a matrix product. -/
theorem C11_cgbr_mulVec (M S workers rows columns : Nat) (choose : Nat → Nat → Nat → BlockChoice)
    (heavy : Nat → Nat → List Nat → Bool) (es : List (Element T))
    (offR : List Nat) (blockrows : Nat) (offC : List Nat) (blockcols : Nat)
    (PR : Partition offR blockrows rows) (PC : Partition offC blockcols columns)
    (hSR : BlocksAtMost offR S) (hSC : BlocksAtMost offC S)
    (hdense : ∀ rs cs n, rs ≤ S → cs ≤ S → n ≤ es.length → choose rs cs n = .dense → rs * cs < M)
    (hdup : (∀ rs cs n, choose rs cs n ≠ .dense) ∨ Distinct (ents es))
    (hw : 0 < workers) (hne : es ≠ []) (hlen : 2 * (es.length + 2) ≤ M) (hgrid : blockrows * blockcols < M)
    (hrows : rows + 1 < M) (hcols : columns < M) (hbr : blockrows ≤ rows) (hbc : blockcols ≤ columns)
    (hin : InRange (ents es) rows columns) (x y : Nat → T) :
    ∃ A es' y', cooToCgbr M S workers choose heavy es rows columns offR blockrows offC blockcols = .ok (A, es') ∧
      A.spmv M (Buf.full columns x) (Buf.full rows y) = .ok (Buf.full rows y') ∧
      ∀ i : Fin rows, y' i = y i + (toMatrix (ents es) rows columns).mulVec (fun j => x j) i := by
  obtain ⟨A, es', h1, h2⟩ := C11_cgbr_spmv M S workers rows columns choose heavy es offR blockrows offC blockcols PR PC
    hSR hSC hdense hdup hw hne hlen hgrid hrows hcols hbr hbc hin
  refine ⟨A, es', _, h1, (h2 columns rows (Nat.le_refl _) (Nat.le_refl _) x y).1, fun i => ?_⟩
  rw [spmvSum_eq_mulVec _ rows columns hin]

/-- The hypotheses of C11 are met by a 5×4 matrix in irregular blocks, dense blocks included. -/
example : Partition [0, 2, 5] 2 5 ∧ Partition [0, 1, 4] 2 4 ∧ BlocksAtMost [0, 2, 5] 3 ∧ BlocksAtMost [0, 1, 4] 3 ∧
    (∀ rs cs n, rs ≤ 3 → cs ≤ 3 → n ≤ 4 → (fun _ _ _ : Nat => BlockChoice.dense) rs cs n = .dense → rs * cs < 2 ^ 32) ∧
    Distinct (ents [(⟨4, 3, 5, 0⟩ : Element Int), ⟨0, 0, 2, 0⟩, ⟨1, 3, 7, 0⟩, ⟨4, 2, 1, 0⟩]) ∧
    InRange (ents [(⟨4, 3, 5, 0⟩ : Element Int), ⟨0, 0, 2, 0⟩, ⟨1, 3, 7, 0⟩, ⟨4, 2, 1, 0⟩]) 5 4 := by
  refine ⟨⟨rfl, rfl, rfl, by decide⟩, ⟨rfl, rfl, rfl, by decide⟩, ?_, ?_, ?_, by decide, by decide⟩
  · intro i lo hi h1 h2
    rcases i with _ | _ | i <;> simp at h1 h2 <;> omega
  · intro i lo hi h1 h2
    rcases i with _ | _ | i <;> simp at h1 h2 <;> omega
  · intro rs cs n h1 h2 _ _
    calc rs * cs ≤ 3 * 3 := Nat.mul_le_mul h1 h2
      _ < 2 ^ 32 := by decide

end

section
variable [AddCommMonoid T] [Mul T]

/-- What a block factory must do: for every non-empty list of elements of a block of at most `S × S`
in range and sorted by row (without a repeated coordinate if `D`), return a type below 6, the same number
of elements, and an object whose `spmv` adds the block's product. -/
def FactoryRight (M S : Nat) (D : Prop) (factory : MakeBlock (BlockObj T) T) : Prop :=
  ∀ rs cs (g : List (Element T)), g ≠ [] → g.length < M → rs + 1 < M → cs < M → rs ≤ S → cs ≤ S →
    InRange (ents g) rs cs → g.Pairwise (fun a b => a.row ≤ b.row) → (D → Distinct (ents g)) →
    ∃ t b g', factory rs cs g = .ok (t, b, g') ∧ t < 6 ∧ g'.length = g.length ∧
      ∀ nx ny xo yo (x y : Nat → T), xo + cs ≤ nx → yo + rs ≤ ny →
        b.spmv (Buf.full nx x) xo (Buf.full ny y) yo =
          .ok (Buf.full ny (spmvSum ((ents g).map (fun e => ⟨yo + e.row, xo + e.col, e.val⟩)) x y))

/-- **C12.** For every right factory, every partition and *either* value of the uninitialised member
`balanced`, construction succeeds and `spmv` computes `y + A x`. -/
theorem C12_cgbr2_spmv (M S workers rows columns : Nat) (factory : MakeBlock (BlockObj T) T) (D : Prop) (es : List (Element T))
    (offR : List Nat) (blockrows : Nat) (offC : List Nat) (blockcols : Nat)
    (PR : Partition offR blockrows rows) (PC : Partition offC blockcols columns)
    (hSR : BlocksAtMost offR S) (hSC : BlocksAtMost offC S)
    (hf : FactoryRight M S D factory) (hdup : D → Distinct (ents es))
    (hw : 0 < workers) (hne : es ≠ []) (hlen : 2 * (es.length + 2) ≤ M) (hgrid : blockrows * blockcols < M)
    (hrows : rows + 1 < M) (hcols : columns < M) (hbr : blockrows ≤ rows) (hbc : blockcols ≤ columns)
    (hin : InRange (ents es) rows columns) :
    ∃ A es', cgbr2Create M workers factory es rows columns offR blockrows offC blockcols = .ok (A, es') ∧
      ∀ (balanced : Bool) (nx ny : Nat), columns ≤ nx → rows ≤ ny → ∀ x y : Nat → T,
        A.spmv M balanced (Buf.full nx x) (Buf.full ny y) = .ok (Buf.full ny (spmvSum (ents es) x y)) := by
  obtain ⟨res, P, h1, -, -, h2⟩ := cgbr2_main M S workers rows columns factory D es offR blockrows offC blockcols PR PC hSR hSC
    (fun rs cs L => rs ≤ S ∧ cs ≤ S ∧ (D → Distinct L)) (fun rs cs L a b _ d => ⟨a, b, d⟩)
    (by
      intro rs cs g a1 a2 a3 a4 a5 a6 a7
      obtain ⟨t, b, g', b1, b2, b3, b4⟩ := hf rs cs g a1 a2 a3 a4 a7.1 a7.2.1 a5 a6 a7.2.2
      exact ⟨(t, b, g'), b1, b2, b3, b4, ⟨_, rfl⟩⟩)
    hdup hw hne hlen hgrid hrows hcols hbr hbc hin
  exact ⟨_, _, h1, h2⟩

end

section
variable [NonUnitalNonAssocSemiring T]

/-- The default factory is right whatever its comparisons answer, if the dense blocks it picks fit the
index type. -/
theorem C12_default_factory_right (M S B : Nat) (hBS : B ≤ S) (choose : Nat → Nat → Nat → FactoryChoice) (D : Prop)
    (hdense : ∀ rs cs n, rs ≤ B → cs ≤ B → n < M → choose rs cs n = .dense → rs * cs < M ∧ D) :
    FactoryRight M B D (factoryDefault M S choose : MakeBlock (BlockObj T) T) := by
  intro rs cs g a1 a2 a3 a4 s1 s2 a5 a6 a7
  have hl : (ents g).length = g.length := by simp [ents]
  obtain ⟨r, h⟩ := goodMake_factory M S choose rs cs g a1 a2 a3 a4 a5 a6 (by
    unfold factoryOk
    split
    · exact ⟨Nat.le_trans s1 hBS, Nat.le_trans s2 hBS⟩
    · exact Nat.le_trans s2 hBS
    · exact Nat.le_trans s2 hBS
    · next h =>
      have := hdense _ _ _ s1 s2 (by rw [hl]; exact a2) h
      exact ⟨this.1, a7 this.2⟩)
  exact ⟨r.1, r.2.1, r.2.2, h.ok, h.type, h.length, h.mul⟩

/-- C12 for the library's factory with its comparisons evaluated exactly; `S` is the number of local indices, `B` bounds the blocks
(with 16-bit local and 32-bit global indices `S = 2^16` and `B = 2^16 - 1` will do). -/
theorem C12_cgbr2_default (M S B sT sI sS workers rows columns : Nat) (es : List (Element T))
    (offR : List Nat) (blockrows : Nat) (offC : List Nat) (blockcols : Nat)
    (PR : Partition offR blockrows rows) (PC : Partition offC blockcols columns)
    (hBS : B ≤ S) (hSR : BlocksAtMost offR B) (hSC : BlocksAtMost offC B) (hBB : B * B < M)
    (hdup : Distinct (ents es))
    (hw : 0 < workers) (hne : es ≠ []) (hlen : 2 * (es.length + 2) ≤ M) (hgrid : blockrows * blockcols < M)
    (hrows : rows + 1 < M) (hcols : columns < M) (hbr : blockrows ≤ rows) (hbc : blockcols ≤ columns)
    (hin : InRange (ents es) rows columns) :
    ∃ A es', cgbr2Create M workers (factoryDefault M S (chooseFactory M sT sI sS)) es rows columns offR blockrows offC blockcols =
        .ok (A, es') ∧
      ∀ (balanced : Bool) (nx ny : Nat), columns ≤ nx → rows ≤ ny → ∀ x y : Nat → T,
        A.spmv M balanced (Buf.full nx x) (Buf.full ny y) = .ok (Buf.full ny (spmvSum (ents es) x y)) :=
  C12_cgbr2_spmv M B workers rows columns _ True es offR blockrows offC blockcols PR PC hSR hSC
    (C12_default_factory_right M S B hBS _ True (fun _ _ _ h1 h2 _ _ => ⟨Nat.lt_of_le_of_lt (Nat.mul_le_mul h1 h2) hBB, trivial⟩))
    (fun _ => hdup) hw hne hlen hgrid hrows hcols hbr hbc hin

/-- Block sizes up to 65535 with 32-bit indices satisfy the size hypothesis, and there are elements for which the
factory picks each of the four types. -/
example : 65535 * 65535 < 2 ^ 32 ∧ chooseFactory (2 ^ 32) 4 4 2 100 100 150 = .coo ∧
    chooseFactory (2 ^ 32) 4 4 2 100 100 300 = .csr ∧ chooseFactory (2 ^ 32) 4 4 2 100 100 3000 = .csrPar ∧
    chooseFactory (2 ^ 32) 4 4 2 100 100 9000 = .dense := by decide

end

/-! ### C51 -/

/-- **C51.** In exact arithmetic `Coo_to_MatrixBlock` picks COO for every block whenever
`sizeof(SIT) ≤ sizeof(T)`: the CSR and dense alternatives are unreachable in all instantiations the
library uses. -/
theorem C51_cgbr_always_coo (sT sI sS rows columns nnz : Nat) (hs : sS ≤ sT) (hr : 0 < rows) (hI : 0 < sI) :
    chooseCgbr sT sI sS rows columns nnz = .coo := by
  unfold chooseCgbr
  simp only
  rw [if_pos]
  have h1 : nnz * sS ≤ nnz * sT := Nat.mul_le_mul_left _ hs
  have h2 : 0 < rows * sI := Nat.mul_pos hr hI
  have e1 : nnz * (2 * sS + sT) = 2 * (nnz * sS) + nnz * sT := by ring
  have e2 : nnz * (sS + sT) = nnz * sS + nnz * sT := by ring
  rw [e1, e2]; omega

/-- **C51.** What `Coo_to_MatrixBlock` picks in exact arithmetic, for every combination of sizes: COO when two small indices and a
value per entry take less than one and a half times the bytes of CSR (one index per row, a small index and a value per entry);
otherwise CSR when less than three tenths of the positions are occupied, and otherwise dense. -/
theorem C51_cgbr_choice (sT sI sS rows columns nnz : Nat) (hr : 0 < rows) (hc : 0 < columns) :
    let coo : ℚ := nnz * sS + nnz * sS + nnz * sT
    let csr : ℚ := rows * sI + nnz * sS + nnz * sT
    let filled : ℚ := nnz / (rows * columns)
    (chooseCgbr sT sI sS rows columns nnz = .coo ↔ coo < 3 / 2 * csr) ∧
      (chooseCgbr sT sI sS rows columns nnz = .csr ↔ 3 / 2 * csr ≤ coo ∧ filled < 3 / 10) ∧
      (chooseCgbr sT sI sS rows columns nnz = .dense ↔ 3 / 2 * csr ≤ coo ∧ 3 / 10 ≤ filled) := by
  intro coo csr filled
  have h1 : coo < 3 / 2 * csr ↔ 2 * (nnz * (2 * sS + sT)) < 3 * (rows * sI + nnz * (sS + sT)) := by
    rw [← Nat.cast_lt (α := ℚ)]
    push_cast
    constructor <;> intro h <;> simp only [coo, csr] at * <;> linarith
  have hp : (0 : ℚ) < (rows : ℚ) * columns := by
    have := Nat.mul_pos hr hc
    exact_mod_cast this
  have h2 : filled < 3 / 10 ↔ 10 * nnz < 3 * (rows * columns) := by
    rw [← Nat.cast_lt (α := ℚ)]
    push_cast
    simp only [filled]
    rw [div_lt_iff₀ hp]
    constructor <;> intro h <;> linarith
  rw [← not_lt (a := coo), ← not_lt (a := filled), h1, h2]
  unfold chooseCgbr
  simp only
  split
  · simp_all
  · split <;> simp_all

/-- The same with every operation rounded with relative error at most 1%, for `2*sizeof(SIT) ≤
sizeof(T)` (16-bit small indices with float, or 32-bit ones with double). -/
theorem C51_cgbr_always_coo_rounded (fl : ℚ → ℚ) (hfl : ∀ q : ℚ, 0 ≤ q → q * (99 / 100) ≤ fl q ∧ fl q ≤ q * (101 / 100))
    (sT sI sS rows columns nnz : Nat) (hs : 2 * sS ≤ sT) (hT : 0 < sT) (hn : 0 < nnz) :
    chooseCgbrFl fl sT sI sS rows columns nnz = .coo := by
  unfold chooseCgbrFl
  simp only
  rw [if_pos]
  have hn' : (0 : ℚ) < nnz := by exact_mod_cast hn
  have hT' : (0 : ℚ) < sT := by exact_mod_cast hT
  have hs' : 2 * (sS : ℚ) ≤ sT := by exact_mod_cast hs
  have hS0 : (0 : ℚ) ≤ sS := by exact_mod_cast Nat.zero_le _
  have hI0 : (0 : ℚ) ≤ sI := by exact_mod_cast Nat.zero_le _
  have hr0 : (0 : ℚ) ≤ rows := by exact_mod_cast Nat.zero_le _
  push_cast
  have p1 : (0 : ℚ) < nnz * sT := mul_pos hn' hT'
  have p2 : (0 : ℚ) ≤ nnz * sS := mul_nonneg hn'.le hS0
  have p3 : 2 * ((nnz : ℚ) * sS) ≤ nnz * sT := by nlinarith
  -- coo
  obtain ⟨a1, a2⟩ := hfl nnz hn'.le
  have a3 : (0 : ℚ) ≤ fl nnz := le_trans (by positivity) a1
  have k0 : (0 : ℚ) ≤ 2 * sS + sT := by positivity
  have c1 := (hfl (fl nnz * (2 * sS + sT)) (mul_nonneg a3 k0)).2
  have c2 : fl nnz * (2 * sS + sT) ≤ nnz * (101 / 100) * (2 * sS + sT) := mul_le_mul_of_nonneg_right a2 k0
  -- csr
  have r1 := (hfl rows hr0).1
  have r2 : (0 : ℚ) ≤ fl rows := le_trans (by positivity) r1
  have r3 := (hfl (fl rows * sI) (mul_nonneg r2 hI0)).1
  have r4 : (0 : ℚ) ≤ fl (fl rows * sI) := le_trans (mul_nonneg (mul_nonneg r2 hI0) (by norm_num)) r3
  have q0 : (0 : ℚ) ≤ nnz * (sS + sT) := by positivity
  have q1 := (hfl (nnz * (sS + sT)) q0).1
  have q2 : (0 : ℚ) ≤ fl (nnz * (sS + sT)) := le_trans (by positivity) q1
  have s1 := (hfl (fl (fl rows * sI) + fl (nnz * (sS + sT))) (add_nonneg r4 q2)).1
  have s2 : (0 : ℚ) ≤ fl (fl (fl rows * sI) + fl (nnz * (sS + sT))) :=
    le_trans (mul_nonneg (add_nonneg r4 q2) (by norm_num)) s1
  have t1 := (hfl (3 / 2 * fl (fl (fl rows * sI) + fl (nnz * (sS + sT)))) (by positivity)).1
  nlinarith

/-- The small-index condition cannot be dropped: with 8-byte small indices and 1-byte values a full
1000×1000 block becomes dense and a fairly full one CSR. -/
example : chooseCgbr 1 4 8 1000 1000 1000000 = .dense ∧ chooseCgbr 1 4 8 1000 1000 200000 = .csr := by decide

/-- Rounding functions with the assumed error exist, e.g. one that is not the identity. -/
example : ∀ q : ℚ, 0 ≤ q → q * (99 / 100) ≤ (fun q => q * (1001 / 1000)) q ∧ (fun q => q * (1001 / 1000)) q ≤ q * (101 / 100) := by
  intro q hq
  constructor <;> simp only <;> linarith

/-- The default factory's choice, exactly: COO iff the small indices take less than the row pointers
would; else CSR iff smaller than dense; CSR is parallel iff at least 5% full. -/
theorem C51_factory_choice (M sT sI sS rows columns nnz : Nat) (hM : rows * columns < M) :
    (chooseFactory M sT sI sS rows columns nnz = .coo ↔ nnz * sS < rows * sI) ∧
    (chooseFactory M sT sI sS rows columns nnz = .csr ↔ rows * sI ≤ nnz * sS ∧
      rows * sI + nnz * (sS + sT) < rows * columns * sT ∧ 20 * nnz < rows * columns) ∧
    (chooseFactory M sT sI sS rows columns nnz = .csrPar ↔ rows * sI ≤ nnz * sS ∧
      rows * sI + nnz * (sS + sT) < rows * columns * sT ∧ rows * columns ≤ 20 * nnz) ∧
    (chooseFactory M sT sI sS rows columns nnz = .dense ↔ rows * sI ≤ nnz * sS ∧
      rows * columns * sT ≤ rows * sI + nnz * (sS + sT)) := by
  unfold chooseFactory
  rw [mulM_eq hM]
  have e1 : nnz * (2 * sS + sT) = 2 * (nnz * sS) + nnz * sT := by ring
  have e2 : nnz * (sS + sT) = nnz * sS + nnz * sT := by ring
  simp only [e1, e2]
  generalize nnz * sS = a
  generalize nnz * sT = b
  generalize rows * sI = c
  generalize rows * columns * sT = d
  by_cases h1 : 2 * a + b < c + (a + b)
  · rw [if_pos h1]; simp; omega
  · rw [if_neg h1]
    by_cases h2 : c + (a + b) < d
    · rw [if_pos h2]
      by_cases h3 : 20 * nnz < rows * columns
      · rw [if_pos h3]; simp; omega
      · rw [if_neg h3]; simp; omega
    · rw [if_neg h2]; simp; omega

/-- A dense block chosen by the exact default factory for (float, uint32, uint16) never overflows the
index type, provided the matrix has at most half as many entries as the type has values. -/
theorem C51_factory_dense_fits (M rows columns nnz : Nat) (hr : 4 * rows ≤ M) (hn : 2 * nnz < M)
    (h : chooseFactory M 4 4 2 rows columns nnz = .dense) : rows * columns < M := by
  unfold chooseFactory at h
  simp only at h
  split at h
  · simp at h
  · split at h
    · split at h <;> simp at h
    · generalize rows * columns = p at *
      omega

end Gsb
