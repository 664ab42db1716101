import Verif.Proof.Heap
import Verif.Props.Csbr
/-
C47 — building a matrix and releasing it: which formats give back exactly what they allocated, which leave allocations
behind, and which release memory in a way it was not obtained.
-/
namespace Gsb
variable {T : Type}

/-- COO with one array, CSR, CSR with pairs, compressed-row CSR, CSWR, CSBR3: `release` gives back
every array, once, with the matching operator. -/
theorem C47_released (strict : Bool) (given : Nat × Nat) :
    Balanced (Mem.coo23 strict) ∧
    Balanced (Mem.csr true given >>= Mem.releaseCsr strict) ∧
    Balanced (Mem.csr2 strict) ∧ Balanced (Mem.crcsr strict) ∧ Balanced (Mem.cswr strict) ∧ Balanced (Mem.csbr3 strict) := by
  refine ⟨?_, ?_, ?_, ?_, ?_, ?_⟩
  · exact (Triple.acq (fun _ => Triple.relLast 0 rfl rfl)).balanced
  · refine (Triple.bind (P := fun a l => l = [(a.2.2, .newArray), (a.2.1, .newArray), (a.1, .newArray)]) ?_ ?_).balanced
    · exact Triple.acq (fun _ => Triple.acq (fun _ => Triple.acq (fun _ => Triple.pure rfl)))
    · rintro a l rfl
      exact Triple.rel 2 rfl (Triple.rel 0 rfl (Triple.relLast 0 rfl rfl))
  · exact (Triple.acq (fun _ => Triple.acq (fun _ => Triple.rel 0 rfl (Triple.relLast 0 rfl rfl)))).balanced
  · exact (Triple.acq (fun _ => Triple.acq (fun _ => Triple.acq (fun _ => Triple.acq (fun _ =>
      Triple.rel 3 rfl (Triple.rel 2 rfl (Triple.rel 1 rfl (Triple.relLast 0 rfl rfl)))))))).balanced
  · exact (Triple.acq (fun _ => Triple.acq (fun _ => Triple.acq (fun _ => Triple.acq (fun _ =>
      Triple.rel 3 rfl (Triple.rel 2 rfl (Triple.rel 1 rfl (Triple.relLast 0 rfl rfl)))))))).balanced
  · exact (Triple.acq (fun _ => Triple.acq (fun _ => Triple.acq (fun _ => Triple.acq (fun _ => Triple.acq (fun _ =>
      Triple.acq (fun _ => Triple.rel 5 rfl (Triple.rel 4 rfl (Triple.rel 3 rfl (Triple.rel 2 rfl (Triple.rel 1 rfl
        (Triple.relLast 0 rfl rfl)))))))))))).balanced

/-- CSR built into arrays the caller has allocated (`allocate` false): `release` gives back those two
and the array of row pointers. -/
theorem C47_csr_given (strict : Bool) :
    Balanced (do
      let v ← newArr
      let c ← newArr
      let a ← Mem.csr false (v, c)
      Mem.releaseCsr strict a) := by
  refine (Triple.acq (fun v => Triple.acq (fun c =>
    Triple.bind (P := fun a l => l = [(a.2.2, .newArray), (a.2.1, .newArray), (a.1, .newArray)]) ?_ ?_))).balanced
  · exact Triple.acq (fun _ => Triple.pure rfl)
  · rintro a l rfl
    exact Triple.rel 2 rfl (Triple.rel 0 rfl (Triple.relLast 0 rfl rfl))

/-- A COO matrix with three arrays (`Coo`): its destructor gives them back; calling `release` as well
gives them back twice. -/
theorem C47_coo (strict : Bool) : Balanced (Mem.cooScope strict) ∧ FailsWith .notLive (Mem.cooReleased strict) := by
  constructor
  · refine (Triple.bind (P := fun a l => l = [(a.2.2, .newArray), (a.2.1, .newArray), (a.1, .newArray)]) ?_ ?_).balanced
    · exact Triple.acq (fun _ => Triple.acq (fun _ => Triple.acq (fun _ => Triple.pure rfl)))
    · rintro a l rfl
      exact Triple.rel 2 rfl (Triple.rel 1 rfl (Triple.relLast 0 rfl rfl))
  · refine FailsAt.failsWith (FailsAt.bind (P := fun a l => l = [(a.2.2, .newArray), (a.2.1, .newArray), (a.1, .newArray)]) ?_ ?_)
    · exact Triple.acq (fun _ => Triple.acq (fun _ => Triple.acq (fun _ => Triple.pure rfl)))
    · rintro a l rfl
      unfold Mem.releaseCoo
      simp only [bind_assoc]
      exact FailsGone.start 2 rfl (FailsGone.rel 1 rfl (FailsGone.rel 0 rfl FailsGone.again))

/-- What the constructors compute for a matrix, offsets and block numbers: `es` are the entries in block
order and `n` the number of blocks. -/
structure InBlockOrder (M : Nat) (es : List (Element T)) (n : Nat) : Prop where
  made : ∃ (raw raw' : List (Element T)) (rows columns blockrows blockcols : Nat) (offR offC : List Nat),
    Partition offR blockrows rows ∧ Partition offC blockcols columns ∧ blockrows < M ∧ blockcols < M ∧
    blockrows * blockcols < M ∧ InRange (ents raw) rows columns ∧ raw ≠ [] ∧ raw.length < M ∧
    calculateBlockId M raw offR blockrows offC blockcols = .ok raw' ∧ es = sortElementsBlocks raw' ∧
    countBlocks M es = .ok n

theorem InBlockOrder.count {M n : Nat} {es : List (Element T)} (h : InBlockOrder M es n) :
    newBlocks (M - 1) es = n ∧ 0 < n := by
  obtain ⟨raw, raw', rows, columns, blockrows, blockcols, offR, offC, PR, PC, hR, hC, hgrid, hin, hne, hlen, hid, rfl, hn⟩ := h.made
  obtain ⟨es', hid', -, hblk, -⟩ := C23_blocks M rows columns raw offR blockrows offC blockcols PR PC hR hC (by omega) hin
  rw [hid] at hid'
  cases hid'
  have hlen' : raw'.length = raw.length := by
    have := calculateBlockId_spec PR PC hR hC (by omega) hin
    rw [hid] at this
    cases this
    simp
  have hp := sortBlocks_perm raw'
  have hsort : sortElementsBlocks raw' ≠ [] := by
    intro h0
    have := hp.length_eq
    rw [h0] at this
    simp at this
    exact hne (List.length_eq_zero_iff.1 (by omega))
  rw [countBlocks_spec M _ hsort (by rw [hp.length_eq]; omega)
    ((sortBlocks_sorted _).imp (fun h => by omega))] at hn
  cases hn
  refine ⟨newBlocks_eq (fun e he => ?_), runs_length_pos _ hsort⟩
  have := (hblk e (hp.mem_iff.1 he)).2.2
  omega

/-- CSBR2 whose offsets the caller allocated by `malloc`, one array for rows and columns or two: nothing is
left and nothing released twice. -/
theorem C47_csbr2 (strict same : Bool) {M n : Nat} {es : List (Element T)} (h : InBlockOrder M es n) :
    Balanced (Mem.csbr2Malloc strict same M es n) := by
  unfold Mem.csbr2Malloc
  cases same
  · exact (Triple.acq (fun _ => Triple.acq (fun _ => csbr2_triple strict (releaseOffsets_triple strict) h.count.1))).balanced
  · exact (Triple.acq (fun _ => csbr2_triple strict (releaseOffsets_same strict) h.count.1)).balanced

/-- CSBR2 built with block sizes: the offsets come from `new []` and are given to `free`. -/
theorem C47_csbr2_sized {M n : Nat} {es : List (Element T)} (h : InBlockOrder M es n) :
    FailsWith .mismatch (Mem.csbr2Sized true M es n) :=
  (FailsAt.acq (fun _ => FailsAt.acq (fun _ => csbr2_fails h.count.1))).failsWith

/-- CSBR built from `Coo3`: memory from `calloc` is given to `delete []`. -/
theorem C47_csbr_mismatch {M n : Nat} {es : List (Element T)} (h : InBlockOrder M es n) :
    FailsWith .mismatch (Mem.csbrSized true M es n) :=
  (FailsAt.acq (fun _ => FailsAt.acq (fun _ => csbr_fails h.count.1 h.count.2))).failsWith

/-- Even when that does no harm, the partition stays allocated. -/
theorem C47_csbr_leak {M n : Nat} {es : List (Element T)} (h : InBlockOrder M es n) :
    LeaksArrays 1 (Mem.csbrSized false M es n) := by
  refine Triple.leaks (Triple.acq (fun _ => Triple.acq (fun _ => ?_)))
  refine (csbr_lax (releaseOffsets_triple false) h.count.1).mono (fun _ l hl => ?_)
  obtain ⟨p, rfl⟩ := hl
  exact ⟨[p], rfl, List.Perm.refl _⟩

/-- CGBR on offsets of the caller, whatever the types of its blocks and whether balanced or not: everything
is released, but not the offsets; so the constructor with block sizes leaves its two arrays of offsets. -/
theorem C47_cgbr (strict : Bool) (types : List BlockChoice) (balanced : Bool) :
    Balanced (Mem.cgbr strict types types.length balanced) ∧
    LeaksArrays 2 (Mem.cgbrSized strict types types.length balanced) := by
  refine ⟨(cgbr_triple strict types balanced []).balanced, Triple.leaks (Triple.acq (fun p => Triple.acq (fun q => ?_)))⟩
  refine (cgbr_triple strict types balanced _).mono (fun _ l hl => ?_)
  subst hl
  exact ⟨[q, p], rfl, List.Perm.refl _⟩

/-- CGBR2: the value array of every dense block stays allocated, and nothing else. -/
theorem C47_cgbr2 (strict : Bool) (types : List FactoryChoice) :
    LeaksArrays (types.count .dense) (Mem.cgbr2 strict types types.length) := (cgbr2_triple strict types).leaks

/-- The tools and drivers: elements allocated by `new []` are given to `free`; a vector read from a file
(`malloc`) is given to `delete []` by pbench, unless inverted, and an inverted one (`new []`) to `free` by permute. -/
theorem C47_tools : FailsWith .mismatch (Mem.toolElements true) ∧
    FailsWith .mismatch (Mem.pbench true false) ∧ Balanced (Mem.pbench true true) ∧
    FailsWith .mismatch (Mem.permuteTool true true) ∧ Balanced (Mem.permuteTool true false) := by
  refine ⟨?_, ?_, ?_, ?_, ?_⟩
  · exact (FailsAt.acq (fun _ => dispose_mismatch 0 rfl (by decide))).failsWith
  · exact (FailsAt.acq (fun _ => dispose_mismatch 0 rfl (by decide))).failsWith
  · exact (Triple.acq (fun _ => Triple.acq (fun _ => Triple.rel 1 rfl (Triple.relLast 0 rfl rfl)))).balanced
  · exact (FailsAt.acq (fun _ => FailsAt.acq (fun _ => FailsAt.rel 1 rfl (dispose_mismatch 0 rfl (by decide))))).failsWith
  · exact (Triple.acq (fun _ => Triple.relLast 0 rfl rfl)).balanced

/-! Examples -/

/-- A 4 x 4 matrix in 2 x 2 blocks, two of them non-empty. -/
example : InBlockOrder (2 ^ 32) [⟨0, 1, (5 : Int), 0⟩, ⟨3, 2, 7, 3⟩] 2 := by
  refine ⟨[⟨3, 2, 7, 0⟩, ⟨0, 1, 5, 0⟩], [⟨3, 2, 7, 3⟩, ⟨0, 1, 5, 0⟩], 4, 4, 2, 2, [0, 2, 4], [0, 2, 4],
    ⟨rfl, rfl, rfl, by decide⟩, ⟨rfl, rfl, rfl, by decide⟩, by decide, by decide, by decide, ?_, by simp, by decide, ?_, ?_, ?_⟩
  · intro e he
    simp [ents, NZ.toEnt] at he
    rcases he with rfl | rfl <;> decide
  · decide +kernel
  · simp [sortElementsBlocks, pssSort, List.mergeSort, List.MergeSort.Internal.splitInTwo, ltBlocks, leOf]
  · decide

/-- The empty heap, and one with an allocation, are heaps the theorems speak of. -/
example : Heap.Ok ⟨0, 0⟩ ∧ Heap.Ok ⟨5, {(3, Kind.malloc)}⟩ := by
  refine ⟨⟨by simp, by simp⟩, ⟨by simp, by simp⟩⟩

/-- Not every computation is balanced: an allocation alone is not. -/
example : ¬ Balanced (acquire .malloc) := by
  intro h
  obtain ⟨a, h', e, hl⟩ := h ⟨0, 0⟩ ⟨by simp, by simp⟩
  cases e
  simp at hl

end Gsb
