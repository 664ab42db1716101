import Verif.Model.Gsb
import Verif.Proof.Scan
import Verif.Proof.Partition
/-
`spmv_blocked` over any matrix of correct blocks.
-/
namespace Gsb
variable {T : Type}

/-- `B k` holds the entries of block `k` with row local to the block-row and global column; the
pointers and offsets are right and each block adds its product to `y`. -/
structure BlockRep [Add T] [Mul T] (A : BlockMat T) (bc : Nat) (fR fC : Nat → Nat) (keys : List Nat)
    (nx : Nat) (x : Nat → T) (B : Nat → List (Ent T)) : Prop where
  bcPos : 0 < bc
  sorted : keys.Pairwise (· < ·)
  range : ∀ k ∈ keys, k / bc < A.blockrows
  ptr : ∀ i, i ≤ A.blockrows →
    A.blockrowPtr.get i = .ok (keys.countP (fun k => decide (k / bc < i)))
  col : ∀ k (h : k < keys.length), A.blockcolInd.get k = .ok (keys[k] % bc)
  rowOff : ∀ i, i ≤ A.blockrows → A.rowOff i = .ok (fR i)
  colOff : ∀ i, i < bc → A.colOff i = .ok (fC i)
  mono : ∀ i, i < A.blockrows → fR i ≤ fR (i + 1)
  eff : ∀ k (h : k < keys.length) ny yo (y : Nat → T),
    yo + (fR (keys[k] / bc + 1) - fR (keys[k] / bc)) ≤ ny →
    A.blockSpmv k (Buf.full nx x) (fC (keys[k] % bc)) (Buf.full ny y) yo =
      .ok (Buf.full ny (visit x y (shift yo 0 (B k))))
  rowsB : ∀ k (h : k < keys.length), ∀ e ∈ B k, e.row < fR (keys[k] / bc + 1) - fR (keys[k] / bc)

/-- Entries of blocks `a … b-1`, local rows. -/
def blocksEnts (B : Nat → List (Ent T)) (a b : Nat) : List (Ent T) :=
  ((List.range' a (b - a)).map B).flatten

theorem blocksEnts_empty (B : Nat → List (Ent T)) {a b : Nat} (h : b ≤ a) : blocksEnts B a b = [] := by
  simp [blocksEnts, Nat.sub_eq_zero_of_le h]

theorem blocksEnts_append (B : Nat → List (Ent T)) {a b c : Nat} (h1 : a ≤ b) (h2 : b ≤ c) :
    blocksEnts B a c = blocksEnts B a b ++ blocksEnts B b c := by
  unfold blocksEnts
  rw [show c - a = (b - a) + (c - b) by omega, ← List.range'_append_1, List.map_append, List.flatten_append]
  rw [show a + (b - a) = b by omega]

theorem blocksEnts_succ (B : Nat → List (Ent T)) {a b : Nat} (h1 : a ≤ b) :
    blocksEnts B a (b + 1) = blocksEnts B a b ++ B b := by
  rw [blocksEnts_append B h1 (Nat.le_succ b)]
  congr 1
  simp [blocksEnts]

theorem mem_blocksEnts {B : Nat → List (Ent T)} {a b : Nat} {e : Ent T} (h : e ∈ blocksEnts B a b) :
    ∃ k, a ≤ k ∧ k < b ∧ e ∈ B k := by
  unfold blocksEnts at h
  rw [List.mem_flatten] at h
  obtain ⟨l, hl, he⟩ := h
  rw [List.mem_map] at hl
  obtain ⟨k, hk, rfl⟩ := hl
  rw [List.mem_range'_1] at hk
  exact ⟨k, hk.1, by omega, he⟩

theorem shift_zero_add (a : Nat) (l : List (Ent T)) : shift a 0 l = l.map (fun e => ⟨a + e.row, e.col, e.val⟩) := by
  simp [shift]

section
variable [Add T] [Mul T] {A : BlockMat T} {bc nx : Nat} {fR fC : Nat → Nat} {keys : List Nat}
  {x : Nat → T} {B : Nat → List (Ent T)}

theorem BlockRep.mono' (R : BlockRep A bc fR fC keys nx x B) {i j : Nat} (h : i ≤ j) (hj : j ≤ A.blockrows) :
    fR i ≤ fR j := by
  obtain ⟨d, rfl⟩ : ∃ d, j = i + d := ⟨j - i, by omega⟩
  induction d with
  | zero => exact Nat.le_refl _
  | succ d ih => exact Nat.le_trans (ih (by omega) (by omega)) (R.mono (i + d) (by omega))

theorem BlockRep.sortedDiv (R : BlockRep A bc fR fC keys nx x B) :
    keys.Pairwise (fun a b => a / bc ≤ b / bc) :=
  R.sorted.imp (fun h => Nat.div_le_div_right (Nat.le_of_lt h))

/-- The first block of block-row `bi`. -/
def rowPtrOf (bc : Nat) (keys : List Nat) (bi : Nat) : Nat := keys.countP (fun k => decide (k / bc < bi))

theorem rowPtrOf_mono (bc : Nat) (keys : List Nat) {i j : Nat} (h : i ≤ j) : rowPtrOf bc keys i ≤ rowPtrOf bc keys j :=
  countP_lt_mono keys (· / bc) h

theorem rowPtrOf_le (bc : Nat) (keys : List Nat) (i : Nat) : rowPtrOf bc keys i ≤ keys.length :=
  List.countP_le_length

/-- A run of blocks of one block-row. -/
theorem spmvBlocks_spec (R : BlockRep A bc fR fC keys nx x B) (bi lo hi ny yo : Nat) (y : Nat → T)
    (hlo : rowPtrOf bc keys bi ≤ lo) (hle : lo ≤ hi) (hhi : hi ≤ rowPtrOf bc keys (bi + 1))
    (hy : yo + (fR (bi + 1) - fR bi) ≤ ny) :
    spmvBlocks A lo hi (Buf.full nx x) (Buf.full ny y) yo =
      .ok (Buf.full ny (visit x y (shift yo 0 (blocksEnts B lo hi)))) := by
  unfold spmvBlocks
  refine forLoop_closed' (fun k => Buf.full ny (visit x y (shift yo 0 (blocksEnts B lo k)))) hle ?_ rfl ?_
  · rw [blocksEnts_empty B (Nat.le_refl _)]; rfl
  · intro k h1 h2
    have hk : k < keys.length := Nat.lt_of_lt_of_le (Nat.lt_of_lt_of_le h2 hhi) (rowPtrOf_le _ _ _)
    have hkb : keys[k] / bc = bi := slice_eq keys (· / bc) R.sortedDiv bi k hk (Nat.le_trans hlo h1)
      (Nat.lt_of_lt_of_le h2 hhi)
    rw [R.col k hk, ok_bind, R.colOff _ (Nat.mod_lt _ R.bcPos), ok_bind, R.eff k hk ny yo _ (by rw [hkb]; exact hy),
      ← visit_append, ← shift_append, blocksEnts_succ B h1]

/-- All entries in global coordinates, block by block. -/
def allEnts (bc : Nat) (fR : Nat → Nat) (keys : List Nat) (B : Nat → List (Ent T)) (n : Nat) : List (Ent T) :=
  ((List.range n).map (fun k => shift (fR ((keys[k]?.getD 0) / bc)) 0 (B k))).flatten

omit [Add T] [Mul T] in
theorem allEnts_succ (bc : Nat) (fR : Nat → Nat) (keys : List Nat) (B : Nat → List (Ent T)) (n : Nat) :
    allEnts bc fR keys B (n + 1) = allEnts bc fR keys B n ++ shift (fR ((keys[n]?.getD 0) / bc)) 0 (B n) := by
  simp [allEnts, List.range_succ]

theorem allEnts_row (R : BlockRep A bc fR fC keys nx x B) (bi : Nat) {hi : Nat}
    (hle : rowPtrOf bc keys bi ≤ hi) (hhi : hi ≤ rowPtrOf bc keys (bi + 1)) :
    allEnts bc fR keys B hi =
      allEnts bc fR keys B (rowPtrOf bc keys bi) ++ shift (fR bi) 0 (blocksEnts B (rowPtrOf bc keys bi) hi) := by
  obtain ⟨d, rfl⟩ : ∃ d, hi = rowPtrOf bc keys bi + d := ⟨hi - rowPtrOf bc keys bi, by omega⟩
  induction d with
  | zero => rw [blocksEnts_empty B (by omega)]; simp [shift]
  | succ d ih =>
    have hk : rowPtrOf bc keys bi + d < keys.length := Nat.lt_of_lt_of_le
      (Nat.lt_of_lt_of_le (Nat.lt_succ_self _) hhi) (rowPtrOf_le _ _ _)
    have hkb : keys[rowPtrOf bc keys bi + d] / bc = bi :=
      slice_eq keys (· / bc) R.sortedDiv bi _ hk (Nat.le_add_right _ _) (Nat.lt_of_lt_of_le (Nat.lt_succ_self _) hhi)
    rw [← Nat.add_assoc, allEnts_succ, ih (by omega) (by omega), blocksEnts_succ B (by omega), shift_append,
      List.append_assoc, List.getElem?_eq_getElem hk]
    simp only [Option.getD_some, hkb]

/-- The balanced path visits all blocks in storage order. -/
theorem spmvBalanced_spec (R : BlockRep A bc fR fC keys nx x B) (ny : Nat) (y : Nat → T)
    (hy : fR A.blockrows ≤ ny) :
    spmvBalanced A (Buf.full nx x) (Buf.full ny y) =
      .ok (Buf.full ny (visit x y (allEnts bc fR keys B keys.length))) := by
  unfold spmvBalanced
  have := rowLoop (σ := Buf T) keys (· / bc) R.sortedDiv A.blockrows R.range (spmvBalancedRow A (Buf.full nx x))
    (fun k => Buf.full ny (visit x y (allEnts bc fR keys B k))) (by
      intro bi hbi
      unfold spmvBalancedRow
      have m := R.mono bi hbi
      have m2 := R.mono' (show bi + 1 ≤ A.blockrows by omega) (Nat.le_refl _)
      rw [R.ptr bi (by omega), ok_bind, R.ptr (bi + 1) (by omega), ok_bind, R.rowOff bi (by omega), ok_bind]
      refine (spmvBlocks_spec R bi _ _ ny (fR bi) _ (Nat.le_refl _) (rowPtrOf_mono bc keys (Nat.le_succ bi))
        (Nat.le_refl _) (by omega)).trans ?_
      rw [← visit_append]
      congr 3
      exact (allEnts_row R bi (rowPtrOf_mono bc keys (Nat.le_succ bi)) (Nat.le_refl _)).symm)
  simpa [allEnts, visit] using this

end

section
variable [AddCommMonoid T] [Mul T] {A : BlockMat T} {bc nx : Nat} {fR fC : Nat → Nat} {keys : List Nat}
  {x : Nat → T} {B : Nat → List (Ent T)}

/-- Adding the products computed separately from zero. -/
theorem visit_temp (x y : Nat → T) (yo : Nat) (l : List (Ent T)) (i : Nat) :
    visit x y (shift yo 0 l) (yo + i) = y (yo + i) + visit x (fun _ => 0) (shift 0 0 l) i := by
  rw [visit_eq, visit_eq, spmvInOrder_eq_sum, spmvInOrder_eq_sum, shift_zero]
  unfold spmvSum rowEntries
  rw [zero_add]
  congr 2
  simp only [shift, List.filter_map, Function.comp_def, List.map_map, Nat.zero_add]
  congr 2
  funext e
  rw [Bool.eq_iff_iff]; simp

theorem visit_outside (x y : Nat → T) (l : List (Ent T)) (i : Nat) (h : ∀ e ∈ l, e.row ≠ i) :
    visit x y l i = y i := by
  rw [visit_eq]
  unfold spmvInOrder rowEntries
  rw [List.filter_eq_nil_iff.2 (by intro e he; simpa using h e he)]
  rfl

/-- The recursive task over chunks `first … last-1` of block-row `bi`. -/
theorem spmvChunk_spec {M : Nat} (R : BlockRep A bc fR fC keys nx x B) (bi : Nat) (chunks : List Nat)
    (hmono : chunks.Pairwise (· ≤ ·)) (hM : 2 * chunks.length ≤ M)
    (hlo : ∀ c ∈ chunks, rowPtrOf bc keys bi ≤ c) (hhi : ∀ c ∈ chunks, c ≤ rowPtrOf bc keys (bi + 1))
    (fuel first last : Nat) (hf : first < last) (hl : last < chunks.length) (hfuel : last - first ≤ fuel)
    (ny yo : Nat) (y : Nat → T) (hy : yo + (fR (bi + 1) - fR bi) ≤ ny) :
    spmvChunk M A chunks (Buf.full nx x) (fR (bi + 1) - fR bi) fuel first last (Buf.full ny y) yo =
      .ok (Buf.full ny (visit x y (shift yo 0
        (blocksEnts B (chunks[first]?.getD 0) (chunks[last]?.getD 0))))) := by
  induction fuel generalizing first last ny yo y with
  | zero => omega
  | succ fuel ih =>
    unfold spmvChunk
    have hm := List.pairwise_iff_getElem.1 hmono
    rw [subM_eq (by omega) (by omega)]
    split
    · next h1 =>
      rw [rd_ok (show first < chunks.length by omega), ok_bind, rd_ok hl, ok_bind,
        List.getElem?_eq_getElem (show first < chunks.length by omega), List.getElem?_eq_getElem hl]
      exact spmvBlocks_spec R bi _ _ ny yo y (hlo _ (List.getElem_mem _)) (hm first last _ _ hf)
        (hhi _ (List.getElem_mem _)) hy
    · next h1 =>
      rw [addM_eq (by omega)]
      have hmid1 : first < (first + last) / 2 := by omega
      have hmid2 : (first + last) / 2 < last := by omega
      generalize (first + last) / 2 = mid at *
      simp only
      rw [ih first mid hmid1 (by omega) (by omega) ny yo y hy, ok_bind]
      have hfill : (Buf.filled (fR (bi + 1) - fR bi) 0 : Buf T) = Buf.full (fR (bi + 1) - fR bi) (fun _ => 0) := rfl
      rw [hfill, ih mid last hmid2 (by omega) (by omega) _ 0 _ (by omega), ok_bind]
      have hfl : first < chunks.length := by omega
      have hml : mid < chunks.length := by omega
      rw [blocksEnts_append B (a := chunks[first]?.getD 0) (b := chunks[mid]?.getD 0) (c := chunks[last]?.getD 0) (by
          rw [List.getElem?_eq_getElem hfl, List.getElem?_eq_getElem hml]; exact hm _ _ _ _ hmid1) (by
          rw [List.getElem?_eq_getElem hml, List.getElem?_eq_getElem hl]; exact hm _ _ _ _ hmid2),
        shift_append, visit_append]
      have hrow : ∀ e ∈ blocksEnts B (chunks[mid]?.getD 0) (chunks[last]?.getD 0), e.row < fR (bi + 1) - fR bi := by
        intro e he
        obtain ⟨k, k1, k2, k3⟩ := mem_blocksEnts he
        rw [List.getElem?_eq_getElem hml] at k1
        rw [List.getElem?_eq_getElem hl] at k2
        simp only [Option.getD_some] at k1 k2
        have a1 := hlo _ (List.getElem_mem hml)
        have a2 := hhi _ (List.getElem_mem hl)
        have hk : k < keys.length := Nat.lt_of_lt_of_le (Nat.lt_of_lt_of_le k2 a2) (rowPtrOf_le _ _ _)
        have hkb : keys[k] / bc = bi := slice_eq keys (· / bc) R.sortedDiv bi k hk (Nat.le_trans a1 k1)
          (Nat.lt_of_lt_of_le k2 a2)
        have := R.rowsB k hk e k3
        rwa [hkb] at this
      generalize visit x y (shift yo 0 (blocksEnts B (chunks[first]?.getD 0) (chunks[mid]?.getD 0))) = z
      generalize blocksEnts B (chunks[mid]?.getD 0) (chunks[last]?.getD 0) = L at *
      generalize fR (bi + 1) - fR bi = n at *
      refine forLoop_closed' (fun i => Buf.full ny (fun j => if yo ≤ j ∧ j < yo + i then
        visit x z (shift yo 0 L) j else z j)) (Nat.zero_le _) ?_ ?_ ?_
      · congr 1; funext j
        rw [if_neg (by omega)]
      · congr 1; funext j
        by_cases hj : yo ≤ j ∧ j < yo + n
        · rw [if_pos hj]
        · rw [if_neg hj]
          refine (visit_outside x z _ j ?_).symm
          intro e he
          simp only [shift, List.mem_map] at he
          obtain ⟨e', he', rfl⟩ := he
          have := hrow e' he'
          simp only; omega
      · intro i _ hi
        rw [Buf.get_full (by omega), ok_bind, Buf.get_full (by omega), ok_bind, Buf.put_full (by omega)]
        congr 2; funext j
        by_cases hj : j = yo + i
        · subst hj
          rw [if_pos rfl, if_neg (by omega), if_pos (by omega), visit_temp]
        · rw [if_neg hj]
          have : (yo ≤ j ∧ j < yo + i) ↔ (yo ≤ j ∧ j < yo + (i + 1)) := by omega
          simp only [this]

/-- The chunked path computes the same as the balanced one. -/
theorem spmvChunked_spec {M : Nat} (R : BlockRep A bc fR fC keys nx x B) (ny : Nat) (y : Nat → T)
    (hy : fR A.blockrows ≤ ny) (hMr : A.blockrows < M) (hMf : fR A.blockrows < M)
    (P : List (List Nat)) (hP : ∀ bi, bi < A.blockrows → ∃ c, P[bi]? = some c ∧ 2 * c.length ≤ M ∧ 2 ≤ c.length ∧
      c.Pairwise (· ≤ ·) ∧ c.head? = some (rowPtrOf bc keys bi) ∧ c.getLast? = some (rowPtrOf bc keys (bi + 1))) :
    forLoop 0 A.blockrows (Buf.full ny y) (spmvChunkedRow M A P (Buf.full nx x)) =
      .ok (Buf.full ny (visit x y (allEnts bc fR keys B keys.length))) := by
  have := rowLoop (σ := Buf T) keys (· / bc) R.sortedDiv A.blockrows R.range (spmvChunkedRow M A P (Buf.full nx x))
    (fun k => Buf.full ny (visit x y (allEnts bc fR keys B k))) (by
      intro bi hbi
      obtain ⟨c, hc, hcM, hc2, hcm, hch, hcl⟩ := hP bi hbi
      unfold spmvChunkedRow
      have m := R.mono bi hbi
      have m2 := R.mono' (show bi + 1 ≤ A.blockrows by omega) (Nat.le_refl _)
      have hrd : rd P bi = .ok c := by simp [rd, hc]
      rw [hrd, ok_bind, addM_eq (by omega), R.rowOff bi (by omega), ok_bind, R.rowOff (bi + 1) (by omega), ok_bind,
        subM_eq (by omega) m, Nat.mod_eq_of_lt (show c.length < M by omega), subM_eq (by omega) (by omega)]
      have hm := List.pairwise_iff_getElem.1 hcm
      have h0 : c[0]'(by omega) = rowPtrOf bc keys bi := by
        rw [List.head?_eq_getElem?, List.getElem?_eq_getElem (by omega)] at hch
        simpa using hch
      have hl : c[c.length - 1]'(by omega) = rowPtrOf bc keys (bi + 1) := by
        rw [List.getLast?_eq_getElem?, List.getElem?_eq_getElem (by omega)] at hcl
        simpa using hcl
      have hle1 : ∀ d ∈ c, rowPtrOf bc keys bi ≤ d := by
        intro d hd
        obtain ⟨j, hj, rfl⟩ := List.mem_iff_getElem.1 hd
        rcases Nat.eq_zero_or_pos j with h | h
        · subst h; omega
        · have := hm 0 j (by omega) hj h; omega
      have hle2 : ∀ d ∈ c, d ≤ rowPtrOf bc keys (bi + 1) := by
        intro d hd
        obtain ⟨j, hj, rfl⟩ := List.mem_iff_getElem.1 hd
        rcases Nat.lt_or_ge j (c.length - 1) with h | h
        · have := hm j (c.length - 1) hj (by omega) h; omega
        · have : j = c.length - 1 := by omega
          subst this; omega
      rw [spmvChunk_spec R bi c hcm hcM hle1 hle2 c.length 0 (c.length - 1) (by omega) (by omega) (by omega)
        ny (fR bi) _ (by omega), ← visit_append]
      congr 3
      rw [List.getElem?_eq_getElem (by omega), List.getElem?_eq_getElem (by omega)]
      simp only [Option.getD_some, h0, hl]
      exact (allEnts_row R bi (rowPtrOf_mono bc keys (Nat.le_succ bi)) (Nat.le_refl _)).symm)
  simpa [allEnts, visit] using this

/-- Both paths of `spmv_blocked`. -/
theorem spmvBlocked_spec {M : Nat} (R : BlockRep A bc fR fC keys nx x B) (ny : Nat) (y : Nat → T)
    (hy : fR A.blockrows ≤ ny) (hMr : A.blockrows < M) (hMf : fR A.blockrows < M) (bal : Bool)
    (P : List (List Nat)) (hP : bal = false → ∀ bi, bi < A.blockrows → ∃ c, P[bi]? = some c ∧ 2 * c.length ≤ M ∧ 2 ≤ c.length ∧
      c.Pairwise (· ≤ ·) ∧ c.head? = some (rowPtrOf bc keys bi) ∧ c.getLast? = some (rowPtrOf bc keys (bi + 1))) :
    spmvBlocked M A bal P (Buf.full nx x) (Buf.full ny y) =
      .ok (Buf.full ny (visit x y (allEnts bc fR keys B keys.length))) := by
  unfold spmvBlocked
  cases bal with
  | true => exact spmvBalanced_spec R ny y hy
  | false => exact spmvChunked_spec R ny y hy hMr hMf P (hP rfl)

end
end Gsb
