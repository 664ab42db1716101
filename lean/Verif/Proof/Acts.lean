import Verif.Proof.Cgbr
import Verif.Proof.Total
/-
`spmv_blocked` and the CGBR formats without any law of `+` or `*`.
-/
namespace Gsb
variable {T : Type}

/-- `y` with `F r` applied to component `yo + r`, for the `h` components from `yo` on. -/
def winAct (yo h : Nat) (F : Nat → T → T) (y : Nat → T) : Nat → T :=
  fun j => if yo ≤ j ∧ j < yo + h then F (j - yo) (y j) else y j

theorem winAct_in (yo h : Nat) (F : Nat → T → T) (y : Nat → T) {r : Nat} (hr : r < h) :
    winAct yo h F y (yo + r) = F r (y (yo + r)) := by
  unfold winAct
  rw [if_pos (by omega), Nat.add_sub_cancel_left]

theorem winAct_out (yo h : Nat) (F : Nat → T → T) (y : Nat → T) {j : Nat} (hj : ¬ (yo ≤ j ∧ j < yo + h)) :
    winAct yo h F y j = y j := by
  unfold winAct; rw [if_neg hj]

theorem winAct_comp (yo h : Nat) (F G : Nat → T → T) (y : Nat → T) :
    winAct yo h G (winAct yo h F y) = winAct yo h (fun r t => G r (F r t)) y := by
  funext j
  unfold winAct
  split
  · rfl
  · rfl

theorem winAct_id (yo h : Nat) (y : Nat → T) : winAct yo h (fun _ t => t) y = y := by
  funext j; unfold winAct; split <;> rfl

/-- Local rows of blocks `a … b-1`. -/
theorem products_blocksEnts_succ [Mul T] (B : Nat → List (Ent T)) (x : Nat → T) (r : Nat) {a b : Nat} (h : a ≤ b) :
    products (blocksEnts B a (b + 1)) x r = products (blocksEnts B a b) x r ++ products (B b) x r := by
  unfold products rowEntries
  rw [blocksEnts_succ B h, List.filter_append, List.map_append]

theorem products_append [Mul T] (l l' : List (Ent T)) (x : Nat → T) (r : Nat) :
    products (l ++ l') x r = products l x r ++ products l' x r := by
  unfold products rowEntries
  rw [List.filter_append, List.map_append]

theorem products_nil [Mul T] (l : List (Ent T)) (x : Nat → T) (r : Nat) (h : ∀ e ∈ l, e.row ≠ r) : products l x r = [] := by
  unfold products rowEntries
  rw [List.filter_eq_nil_iff.2 (by intro e he; simpa using h e he)]
  rfl

theorem products_shift [Mul T] (l : List (Ent T)) (x : Nat → T) (o r : Nat) : products (shift o 0 l) x (o + r) = products l x r := by
  unfold products rowEntries shift
  rw [List.filter_map, List.map_map]
  have : ((fun e : Ent T => e.row == o + r) ∘ fun e : Ent T => (⟨o + e.row, 0 + e.col, e.val⟩ : Ent T)) = (fun e => e.row == r) := by
    funext e; rw [Bool.eq_iff_iff]; simp
  rw [this]
  refine List.map_congr_left (fun e _ => ?_)
  simp

theorem products_shiftCols [Mul T] (l : List (Ent T)) (x : Nat → T) (yo xo r : Nat) :
    products (shift yo xo l) x (yo + r) = products (shift 0 xo l) x r := by
  unfold products rowEntries shift
  rw [List.filter_map, List.map_map, List.filter_map, List.map_map]
  have : ((fun e : Ent T => e.row == yo + r) ∘ fun e : Ent T => (⟨yo + e.row, xo + e.col, e.val⟩ : Ent T)) =
      ((fun e : Ent T => e.row == r) ∘ fun e : Ent T => (⟨0 + e.row, xo + e.col, e.val⟩ : Ent T)) := by
    funext e; rw [Bool.eq_iff_iff]; simp
  rw [this]
  rfl

/-- `B k` holds the entries of block `k` with row local to the block-row and global column; the pointers and offsets are right, and
block `k` turns component `r` of its rows of `y` into `F k r` of it, a sum of it and of the products of that row. -/
structure ActRep [Add T] [Mul T] (pad : T → Prop) (A : BlockMat T) (bc : Nat) (fR fC : Nat → Nat) (keys : List Nat)
    (nx : Nat) (x : Nat → T) (B : Nat → List (Ent T)) (F : Nat → Nat → T → T) : Prop where
  bcPos : 0 < bc
  sorted : keys.Pairwise (· < ·)
  range : ∀ k ∈ keys, k / bc < A.blockrows
  ptr : ∀ i, i ≤ A.blockrows →
    A.blockrowPtr.get i = .ok (keys.countP (fun k => decide (k / bc < i)))
  col : ∀ k (h : k < keys.length), A.blockcolInd.get k = .ok (keys[k] % bc)
  rowOff : ∀ i, i ≤ A.blockrows → A.rowOff i = .ok (fR i)
  colOff : ∀ i, i < bc → A.colOff i = .ok (fC i)
  mono : ∀ i, i < A.blockrows → fR i ≤ fR (i + 1)
  eff : ∀ k (h : k < keys.length) ny yo (y : Nat → T),
    yo + (fR (keys[k] / bc + 1) - fR (keys[k] / bc)) ≤ ny →
    A.blockSpmv k (Buf.full nx x) (fC (keys[k] % bc)) (Buf.full ny y) yo =
      .ok (Buf.full ny (winAct yo (fR (keys[k] / bc + 1) - fR (keys[k] / bc)) (F k) y))
  rowsB : ∀ k (h : k < keys.length), ∀ e ∈ B k, e.row < fR (keys[k] / bc + 1) - fR (keys[k] / bc)
  tot : ∀ k (h : k < keys.length) r t, r < fR (keys[k] / bc + 1) - fR (keys[k] / bc) →
    Total pad (t :: products (B k) x r) (F k r t)

section
variable [Add T] [Mul T] {pad : T → Prop} {A : BlockMat T} {bc nx : Nat} {fR fC : Nat → Nat} {keys : List Nat}
  {x : Nat → T} {B : Nat → List (Ent T)} {F : Nat → Nat → T → T}

theorem ActRep.mono' (R : ActRep pad A bc fR fC keys nx x B F) {i j : Nat} (h : i ≤ j) (hj : j ≤ A.blockrows) :
    fR i ≤ fR j := by
  obtain ⟨d, rfl⟩ : ∃ d, j = i + d := ⟨j - i, by omega⟩
  induction d with
  | zero => exact Nat.le_refl _
  | succ d ih => exact Nat.le_trans (ih (by omega) (by omega)) (R.mono (i + d) (by omega))

theorem ActRep.sortedDiv (R : ActRep pad A bc fR fC keys nx x B F) :
    keys.Pairwise (fun a b => a / bc ≤ b / bc) :=
  R.sorted.imp (fun h => Nat.div_le_div_right (Nat.le_of_lt h))

/-- The blocks `lo … hi-1`, one after the other, on one component. -/
def blocksAct (F : Nat → Nat → T → T) (lo hi r : Nat) (t : T) : T :=
  (List.range' lo (hi - lo)).foldl (fun t k => F k r t) t

omit [Add T] [Mul T] in
theorem blocksAct_succ (F : Nat → Nat → T → T) {lo k : Nat} (h : lo ≤ k) (r : Nat) (t : T) :
    blocksAct F lo (k + 1) r t = F k r (blocksAct F lo k r t) := by
  unfold blocksAct
  rw [show k + 1 - lo = (k - lo) + 1 by omega, List.range'_concat, List.foldl_append]
  simp only [List.foldl_cons, List.foldl_nil, Nat.one_mul]
  rw [show lo + (k - lo) = k by omega]

/-- A run of blocks of one block-row. -/
theorem spmvBlocks_act (R : ActRep pad A bc fR fC keys nx x B F) (bi lo hi ny yo : Nat) (y : Nat → T)
    (hlo : rowPtrOf bc keys bi ≤ lo) (hle : lo ≤ hi) (hhi : hi ≤ rowPtrOf bc keys (bi + 1))
    (hy : yo + (fR (bi + 1) - fR bi) ≤ ny) :
    spmvBlocks A lo hi (Buf.full nx x) (Buf.full ny y) yo =
      .ok (Buf.full ny (winAct yo (fR (bi + 1) - fR bi) (blocksAct F lo hi) y)) := by
  unfold spmvBlocks
  refine forLoop_closed' (fun k => Buf.full ny (winAct yo (fR (bi + 1) - fR bi) (blocksAct F lo k) y)) hle ?_ rfl ?_
  · congr 1
    have : blocksAct F lo lo = fun _ t => t := by funext r t; simp [blocksAct]
    rw [this, winAct_id]
  · intro k h1 h2
    have hk : k < keys.length := Nat.lt_of_lt_of_le (Nat.lt_of_lt_of_le h2 hhi) (rowPtrOf_le _ _ _)
    have hkb : keys[k] / bc = bi := slice_eq keys (· / bc) R.sortedDiv bi k hk (Nat.le_trans hlo h1)
      (Nat.lt_of_lt_of_le h2 hhi)
    rw [R.col k hk, ok_bind, R.colOff _ (Nat.mod_lt _ R.bcPos), ok_bind, R.eff k hk ny yo _ (by rw [hkb]; exact hy), hkb,
      winAct_comp]
    congr 3
    funext r t
    rw [blocksAct_succ F h1]

theorem blocksAct_total (R : ActRep pad A bc fR fC keys nx x B F) (bi lo hi : Nat)
    (hlo : rowPtrOf bc keys bi ≤ lo) (hle : lo ≤ hi) (hhi : hi ≤ rowPtrOf bc keys (bi + 1)) {r : Nat}
    (hr : r < fR (bi + 1) - fR bi) (t : T) : Total pad (t :: products (blocksEnts B lo hi) x r) (blocksAct F lo hi r t) := by
  obtain ⟨d, rfl⟩ : ∃ d, hi = lo + d := ⟨hi - lo, by omega⟩
  induction d with
  | zero =>
    have h1 : blocksAct F lo (lo + 0) r t = t := by simp [blocksAct]
    rw [h1, blocksEnts_empty B (by omega)]
    exact .one t
  | succ d ih =>
    rw [← Nat.add_assoc, blocksAct_succ F (by omega), products_blocksEnts_succ B x r (by omega)]
    have hk : lo + d < keys.length := Nat.lt_of_lt_of_le (Nat.lt_of_lt_of_le (Nat.lt_succ_self _) hhi) (rowPtrOf_le _ _ _)
    have hkb : keys[lo + d] / bc = bi := slice_eq keys (· / bc) R.sortedDiv bi _ hk (by unfold rowPtrOf at hlo; omega)
      (Nat.lt_of_lt_of_le (Nat.lt_succ_self _) hhi)
    exact (ih (by omega) (by omega)).trans (R.tot (lo + d) hk r _ (by rw [hkb]; exact hr))

/-- What `G` does to the rows of block-row `bi` is a sum of them and of all their products. -/
def RowAct (pad : T → Prop) (bc : Nat) (fR : Nat → Nat) (keys : List Nat) (x : Nat → T) (B : Nat → List (Ent T)) (bi : Nat)
    (G : Nat → T → T) : Prop :=
  ∀ r, r < fR (bi + 1) - fR bi → ∀ t,
    Total pad (t :: products (blocksEnts B (rowPtrOf bc keys bi) (rowPtrOf bc keys (bi + 1))) x r) (G r t)

theorem balancedRow_act (R : ActRep pad A bc fR fC keys nx x B F) {bi : Nat} (hbi : bi < A.blockrows) :
    ∃ G : Nat → T → T, RowAct pad bc fR keys x B bi G ∧
      (∀ ny yo (y : Nat → T), yo + (fR (bi + 1) - fR bi) ≤ ny →
        spmvBlocks A (rowPtrOf bc keys bi) (rowPtrOf bc keys (bi + 1)) (Buf.full nx x) (Buf.full ny y) yo =
          .ok (Buf.full ny (winAct yo (fR (bi + 1) - fR bi) G y))) ∧
      ∀ ny (y : Nat → T), fR A.blockrows ≤ ny → spmvBalancedRow A (Buf.full nx x) bi (Buf.full ny y) =
        .ok (Buf.full ny (winAct (fR bi) (fR (bi + 1) - fR bi) G y)) := by
  have hp := rowPtrOf_mono bc keys (Nat.le_succ bi)
  refine ⟨blocksAct F (rowPtrOf bc keys bi) (rowPtrOf bc keys (bi + 1)), fun r hr t =>
    blocksAct_total R bi _ _ (Nat.le_refl _) hp (Nat.le_refl _) hr t, fun ny yo y hy =>
    spmvBlocks_act R bi _ _ ny yo y (Nat.le_refl _) hp (Nat.le_refl _) hy, fun ny y hy => ?_⟩
  unfold spmvBalancedRow
  have m := R.mono bi hbi
  have m2 := R.mono' (show bi + 1 ≤ A.blockrows by omega) (Nat.le_refl _)
  rw [R.ptr bi (by omega), ok_bind, R.ptr (bi + 1) (by omega), ok_bind, R.rowOff bi (by omega), ok_bind]
  exact spmvBlocks_act R bi _ _ ny (fR bi) y (Nat.le_refl _) hp (Nat.le_refl _) (by omega)

variable [Zero T]

/-- The recursive task over chunks `first … last-1` of block-row `bi`. -/
theorem spmvChunk_act {M : Nat} (hpad : pad 0) (R : ActRep pad A bc fR fC keys nx x B F) (bi : Nat) (chunks : List Nat)
    (hmono : chunks.Pairwise (· ≤ ·)) (hM : 2 * chunks.length ≤ M)
    (hlo : ∀ c ∈ chunks, rowPtrOf bc keys bi ≤ c) (hhi : ∀ c ∈ chunks, c ≤ rowPtrOf bc keys (bi + 1))
    (fuel first last : Nat) (hf : first < last) (hl : last < chunks.length) (hfuel : last - first ≤ fuel) :
    ∃ G : Nat → T → T, (∀ r, r < fR (bi + 1) - fR bi → ∀ t,
        Total pad (t :: products (blocksEnts B (chunks[first]?.getD 0) (chunks[last]?.getD 0)) x r) (G r t)) ∧
      ∀ ny yo (y : Nat → T), yo + (fR (bi + 1) - fR bi) ≤ ny →
        spmvChunk M A chunks (Buf.full nx x) (fR (bi + 1) - fR bi) fuel first last (Buf.full ny y) yo =
          .ok (Buf.full ny (winAct yo (fR (bi + 1) - fR bi) G y)) := by
  induction fuel generalizing first last with
  | zero => omega
  | succ fuel ih =>
    have hm := List.pairwise_iff_getElem.1 hmono
    have hfl : first < chunks.length := by omega
    by_cases h1 : last - first = 1
    · refine ⟨blocksAct F chunks[first] chunks[last], fun r hr t => ?_, fun ny yo y hy => ?_⟩
      · rw [List.getElem?_eq_getElem hfl, List.getElem?_eq_getElem hl]
        exact blocksAct_total R bi _ _ (hlo _ (List.getElem_mem _)) (hm first last _ _ hf) (hhi _ (List.getElem_mem _)) hr t
      · unfold spmvChunk
        rw [subM_eq (by omega) (by omega), if_pos h1, rd_ok hfl, ok_bind, rd_ok hl, ok_bind]
        exact spmvBlocks_act R bi _ _ ny yo y (hlo _ (List.getElem_mem _)) (hm first last _ _ hf) (hhi _ (List.getElem_mem _)) hy
    · have hmid1 : first < (first + last) / 2 := by omega
      have hmid2 : (first + last) / 2 < last := by omega
      obtain ⟨mid, hmid⟩ : ∃ mid, mid = (first + last) / 2 := ⟨_, rfl⟩
      rw [← hmid] at hmid1 hmid2
      have hml : mid < chunks.length := by omega
      obtain ⟨G1, t1, e1⟩ := ih first mid hmid1 hml (by omega)
      obtain ⟨G2, t2, e2⟩ := ih mid last hmid2 hl (by omega)
      refine ⟨fun r t => G1 r t + G2 r 0, fun r hr t => ?_, fun ny yo y hy => ?_⟩
      · rw [blocksEnts_append B (a := chunks[first]?.getD 0) (b := chunks[mid]?.getD 0) (c := chunks[last]?.getD 0) (by
          rw [List.getElem?_eq_getElem hfl, List.getElem?_eq_getElem hml]; exact hm _ _ _ _ hmid1) (by
          rw [List.getElem?_eq_getElem hml, List.getElem?_eq_getElem hl]; exact hm _ _ _ _ hmid2), products_append]
        have h0 := Total.subst (t2 r hr 0) (.pad hpad) _ (List.Perm.refl _)
        rw [List.nil_append] at h0
        exact .add (t1 r hr t) h0
      · unfold spmvChunk
        rw [subM_eq (by omega) (by omega), if_neg h1, addM_eq (by omega), ← hmid]
        dsimp only
        rw [e1 ny yo y hy, ok_bind]
        have hfill : (Buf.filled (fR (bi + 1) - fR bi) 0 : Buf T) = Buf.full (fR (bi + 1) - fR bi) (fun _ => 0) := rfl
        rw [hfill, e2 _ 0 _ (by omega), ok_bind]
        generalize fR (bi + 1) - fR bi = n at *
        refine forLoop_closed' (fun i => Buf.full ny (fun j => if yo ≤ j ∧ j < yo + i then
          winAct yo n (fun r t => G1 r t + G2 r 0) y j else winAct yo n G1 y j)) (Nat.zero_le _) ?_ ?_ ?_
        · congr 1; funext j
          rw [if_neg (by omega)]
        · congr 1; funext j
          by_cases hj : yo ≤ j ∧ j < yo + n
          · rw [if_pos hj]
          · rw [if_neg hj, winAct_out _ _ _ _ hj, winAct_out _ _ _ _ hj]
        · intro i _ hi
          rw [Buf.get_full (by omega), ok_bind, Buf.get_full (by omega), ok_bind, Buf.put_full (by omega)]
          congr 2; funext j
          by_cases hj : j = yo + i
          · subst hj
            rw [if_pos rfl, if_neg (by omega), if_pos (by omega), winAct_in _ _ _ _ hi, winAct_in _ _ _ _ hi]
            have := winAct_in 0 n G2 (fun _ => (0 : T)) hi
            rw [Nat.zero_add] at this
            rw [this]
          · rw [if_neg hj]
            have : (yo ≤ j ∧ j < yo + i) ↔ (yo ≤ j ∧ j < yo + (i + 1)) := by omega
            simp only [this]

/-- One block-row of the chunked path. -/
theorem chunkedRow_act {M : Nat} (hpad : pad 0) (R : ActRep pad A bc fR fC keys nx x B F) (hMr : A.blockrows < M)
    (hMf : fR A.blockrows < M) (P : List (List Nat)) {bi : Nat} (hbi : bi < A.blockrows) {c : List Nat} (hc : P[bi]? = some c)
    (hcM : 2 * c.length ≤ M) (hc2 : 2 ≤ c.length) (hcm : c.Pairwise (· ≤ ·)) (hch : c.head? = some (rowPtrOf bc keys bi))
    (hcl : c.getLast? = some (rowPtrOf bc keys (bi + 1))) :
    ∃ G : Nat → T → T, RowAct pad bc fR keys x B bi G ∧
      (∀ ny yo (y : Nat → T), yo + (fR (bi + 1) - fR bi) ≤ ny →
        spmvChunk M A c (Buf.full nx x) (fR (bi + 1) - fR bi) c.length 0 (c.length - 1) (Buf.full ny y) yo =
          .ok (Buf.full ny (winAct yo (fR (bi + 1) - fR bi) G y))) ∧
      ∀ ny (y : Nat → T), fR A.blockrows ≤ ny → spmvChunkedRow M A P (Buf.full nx x) bi (Buf.full ny y) =
        .ok (Buf.full ny (winAct (fR bi) (fR (bi + 1) - fR bi) G y)) := by
  have hm := List.pairwise_iff_getElem.1 hcm
  have h0 : c[0]'(by omega) = rowPtrOf bc keys bi := by
    rw [List.head?_eq_getElem?, List.getElem?_eq_getElem (by omega)] at hch
    simpa using hch
  have hl : c[c.length - 1]'(by omega) = rowPtrOf bc keys (bi + 1) := by
    rw [List.getLast?_eq_getElem?, List.getElem?_eq_getElem (by omega)] at hcl
    simpa using hcl
  have hle1 : ∀ d ∈ c, rowPtrOf bc keys bi ≤ d := by
    intro d hd
    obtain ⟨j, hj, rfl⟩ := List.mem_iff_getElem.1 hd
    rcases Nat.eq_zero_or_pos j with h | h
    · subst h; omega
    · have := hm 0 j (by omega) hj h; omega
  have hle2 : ∀ d ∈ c, d ≤ rowPtrOf bc keys (bi + 1) := by
    intro d hd
    obtain ⟨j, hj, rfl⟩ := List.mem_iff_getElem.1 hd
    rcases Nat.lt_or_ge j (c.length - 1) with h | h
    · have := hm j (c.length - 1) hj (by omega) h; omega
    · have : j = c.length - 1 := by omega
      subst this; omega
  obtain ⟨G, t, e⟩ := spmvChunk_act hpad R bi c hcm hcM hle1 hle2 c.length 0 (c.length - 1) (by omega) (by omega) (by omega)
  have g0 : c[0]?.getD 0 = rowPtrOf bc keys bi := by
    rw [List.getElem?_eq_getElem (by omega), Option.getD_some, h0]
  have g1 : c[c.length - 1]?.getD 0 = rowPtrOf bc keys (bi + 1) := by
    rw [List.getElem?_eq_getElem (by omega), Option.getD_some, hl]
  rw [g0, g1] at t
  refine ⟨G, t, e, fun ny y hy => ?_⟩
  unfold spmvChunkedRow
  have m := R.mono bi hbi
  have m2 := R.mono' (show bi + 1 ≤ A.blockrows by omega) (Nat.le_refl _)
  have hrd : rd P bi = .ok c := by simp [rd, hc]
  rw [hrd, ok_bind, addM_eq (by omega), R.rowOff bi (by omega), ok_bind, R.rowOff (bi + 1) (by omega), ok_bind,
    subM_eq (by omega) m, Nat.mod_eq_of_lt (show c.length < M by omega), subM_eq (by omega) (by omega)]
  exact e ny (fR bi) y (by omega)

omit [Add T] [Mul T] [Zero T] in
/-- A loop over block-rows, each acting on its own rows. -/
theorem rows_act {n ny : Nat} (G : Nat → Nat → T → T) (f : Nat → Buf T → C (Buf T))
    (hmono : ∀ i, i < n → fR i ≤ fR (i + 1))
    (hf : ∀ bi, bi < n → ∀ y : Nat → T, f bi (Buf.full ny y) = .ok (Buf.full ny (winAct (fR bi) (fR (bi + 1) - fR bi) (G bi) y)))
    (y : Nat → T) :
    ∃ y', forLoop 0 n (Buf.full ny y) f = .ok (Buf.full ny y') ∧
      (∀ bi, bi < n → ∀ r, r < fR (bi + 1) - fR bi → y' (fR bi + r) = G bi r (y (fR bi + r))) ∧
      ∀ j, fR n ≤ j → y' j = y j := by
  obtain ⟨s, hs, z, rfl, h1, h2⟩ := forLoop_inv (lo := 0) (hi := n) (s := Buf.full ny y) (f := f)
    (fun b s => ∃ z, s = Buf.full ny z ∧ (∀ bi, bi < b → ∀ r, r < fR (bi + 1) - fR bi → z (fR bi + r) = G bi r (y (fR bi + r))) ∧
      ∀ j, fR b ≤ j → z j = y j) (Nat.zero_le _)
    ⟨y, rfl, fun bi h => absurd h (by omega), fun _ _ => rfl⟩ (by
      rintro b s - hb ⟨z, rfl, h1, h2⟩
      have hm := hmono b hb
      refine ⟨_, hf b hb z, _, rfl, fun bi hbi r hr => ?_, fun j hj => ?_⟩
      · by_cases e : bi = b
        · subst e
          rw [winAct_in _ _ _ _ hr, h2 _ (by omega)]
        · have key : ∀ d, bi + 1 + d ≤ b → fR (bi + 1) ≤ fR (bi + 1 + d) := by
            intro d
            induction d with
            | zero => intro _; exact Nat.le_refl _
            | succ d ih => intro hd; exact Nat.le_trans (ih (by omega)) (hmono (bi + 1 + d) (by omega))
          have := key (b - (bi + 1)) (by omega)
          rw [show bi + 1 + (b - (bi + 1)) = b by omega] at this
          rw [winAct_out _ _ _ _ (by omega), h1 bi (by omega) r hr]
      · rw [winAct_out _ _ _ _ (by omega), h2 j (by omega)])
  exact ⟨z, hs, h1, h2⟩

/-- What each block-row of `spmv_blocked` does, alone or inside the whole vector. -/
structure RowActs (pad : T → Prop) (M : Nat) (A : BlockMat T) (bal : Bool) (P : List (List Nat)) (bc : Nat) (fR : Nat → Nat)
    (keys : List Nat) (nx : Nat) (x : Nat → T) (B : Nat → List (Ent T)) (G : Nat → Nat → T → T) : Prop where
  tot : ∀ bi, bi < A.blockrows → RowAct pad bc fR keys x B bi (G bi)
  balanced : bal = true → ∀ bi, bi < A.blockrows → ∀ ny yo (y : Nat → T), yo + (fR (bi + 1) - fR bi) ≤ ny →
    spmvBlocks A (rowPtrOf bc keys bi) (rowPtrOf bc keys (bi + 1)) (Buf.full nx x) (Buf.full ny y) yo =
      .ok (Buf.full ny (winAct yo (fR (bi + 1) - fR bi) (G bi) y))
  chunked : bal = false → ∀ bi, bi < A.blockrows → ∃ c, P[bi]? = some c ∧ 2 * c.length ≤ M ∧ 2 ≤ c.length ∧
    ∀ ny yo (y : Nat → T), yo + (fR (bi + 1) - fR bi) ≤ ny →
      spmvChunk M A c (Buf.full nx x) (fR (bi + 1) - fR bi) c.length 0 (c.length - 1) (Buf.full ny y) yo =
        .ok (Buf.full ny (winAct yo (fR (bi + 1) - fR bi) (G bi) y))
  whole : ∀ bi, bi < A.blockrows → ∀ ny (y : Nat → T), fR A.blockrows ≤ ny →
    (if bal then spmvBalancedRow A (Buf.full nx x) else spmvChunkedRow M A P (Buf.full nx x)) bi (Buf.full ny y) =
      .ok (Buf.full ny (winAct (fR bi) (fR (bi + 1) - fR bi) (G bi) y))

theorem rowActs_exist {M : Nat} (hpad : pad 0) (R : ActRep pad A bc fR fC keys nx x B F) (hMr : A.blockrows < M)
    (hMf : fR A.blockrows < M) (bal : Bool) (P : List (List Nat))
    (hP : bal = false → ∀ bi, bi < A.blockrows → ∃ c, P[bi]? = some c ∧ 2 * c.length ≤ M ∧ 2 ≤ c.length ∧
      c.Pairwise (· ≤ ·) ∧ c.head? = some (rowPtrOf bc keys bi) ∧ c.getLast? = some (rowPtrOf bc keys (bi + 1))) :
    ∃ G, RowActs pad M A bal P bc fR keys nx x B G := by
  cases bal with
  | true =>
    have : ∀ bi, ∃ G : Nat → T → T, bi < A.blockrows → RowAct pad bc fR keys x B bi G ∧
      (∀ ny yo (y : Nat → T), yo + (fR (bi + 1) - fR bi) ≤ ny →
        spmvBlocks A (rowPtrOf bc keys bi) (rowPtrOf bc keys (bi + 1)) (Buf.full nx x) (Buf.full ny y) yo =
          .ok (Buf.full ny (winAct yo (fR (bi + 1) - fR bi) G y))) ∧
      ∀ ny (y : Nat → T), fR A.blockrows ≤ ny → spmvBalancedRow A (Buf.full nx x) bi (Buf.full ny y) =
        .ok (Buf.full ny (winAct (fR bi) (fR (bi + 1) - fR bi) G y)) := by
      intro bi
      by_cases h : bi < A.blockrows
      · obtain ⟨G, hG⟩ := balancedRow_act R h
        exact ⟨G, fun _ => hG⟩
      · exact ⟨fun _ t => t, fun h' => absurd h' h⟩
    choose G hG using this
    exact ⟨G, fun bi h => (hG bi h).1, fun _ bi h => (hG bi h).2.1, fun h => (by simp at h), fun bi h => (hG bi h).2.2⟩
  | false =>
    have : ∀ bi, ∃ G : Nat → T → T, bi < A.blockrows → RowAct pad bc fR keys x B bi G ∧
      (∃ c, P[bi]? = some c ∧ 2 * c.length ≤ M ∧ 2 ≤ c.length ∧ ∀ ny yo (y : Nat → T), yo + (fR (bi + 1) - fR bi) ≤ ny →
        spmvChunk M A c (Buf.full nx x) (fR (bi + 1) - fR bi) c.length 0 (c.length - 1) (Buf.full ny y) yo =
          .ok (Buf.full ny (winAct yo (fR (bi + 1) - fR bi) G y))) ∧
      ∀ ny (y : Nat → T), fR A.blockrows ≤ ny → spmvChunkedRow M A P (Buf.full nx x) bi (Buf.full ny y) =
        .ok (Buf.full ny (winAct (fR bi) (fR (bi + 1) - fR bi) G y)) := by
      intro bi
      by_cases h : bi < A.blockrows
      · obtain ⟨c, c1, c2, c3, c4, c5, c6⟩ := hP rfl bi h
        obtain ⟨G, h1, h2, h3⟩ := chunkedRow_act hpad R hMr hMf P h c1 c2 c3 c4 c5 c6
        exact ⟨G, fun _ => ⟨h1, ⟨c, c1, c2, c3, h2⟩, h3⟩⟩
      · exact ⟨fun _ t => t, fun h' => absurd h' h⟩
    choose G hG using this
    exact ⟨G, fun bi h => (hG bi h).1, fun h => (by simp at h), fun _ bi h => (hG bi h).2.1, fun bi h => (hG bi h).2.2⟩

/-- `spmv_blocked`. -/
theorem spmvBlocked_act {M : Nat} {bal : Bool} {P : List (List Nat)} {G : Nat → Nat → T → T}
    (W : RowActs pad M A bal P bc fR keys nx x B G) (hmono : ∀ i, i < A.blockrows → fR i ≤ fR (i + 1))
    (ny : Nat) (hy : fR A.blockrows ≤ ny) (y : Nat → T) :
    ∃ y', spmvBlocked M A bal P (Buf.full nx x) (Buf.full ny y) = .ok (Buf.full ny y') ∧
      (∀ bi, bi < A.blockrows → ∀ r, r < fR (bi + 1) - fR bi → y' (fR bi + r) = G bi r (y (fR bi + r))) ∧
      ∀ j, fR A.blockrows ≤ j → y' j = y j := by
  obtain ⟨y', h1, h2, h3⟩ := rows_act (n := A.blockrows) (ny := ny) G _ hmono (fun bi hbi z => W.whole bi hbi ny z hy) y
  refine ⟨y', ?_, h2, h3⟩
  unfold spmvBlocked
  cases bal
  · exact h1
  · exact h1

omit [Zero T] in
/-- All products of a row are in its block-row. -/
theorem products_allEnts (R : ActRep pad A bc fR fC keys nx x B F) {bi r : Nat} (hbi : bi < A.blockrows)
    (hr : r < fR (bi + 1) - fR bi) :
    products (allEnts bc fR keys B keys.length) x (fR bi + r) =
      products (blocksEnts B (rowPtrOf bc keys bi) (rowPtrOf bc keys (bi + 1))) x r := by
  have hp := rowPtrOf_mono bc keys (Nat.le_succ bi)
  have key : ∀ n, n ≤ keys.length → products (allEnts bc fR keys B n) x (fR bi + r) =
      products (blocksEnts B (rowPtrOf bc keys bi) (min n (rowPtrOf bc keys (bi + 1)))) x r := by
    intro n
    induction n with
    | zero =>
      intro _
      rw [blocksEnts_empty B (by omega)]; rfl
    | succ n ih =>
      intro hn
      have hk : n < keys.length := hn
      have hg : keys[n]?.getD 0 = keys[n] := by rw [List.getElem?_eq_getElem hk]; rfl
      rw [allEnts_succ, products_append, ih (by omega), hg]
      by_cases hin : rowPtrOf bc keys bi ≤ n ∧ n < rowPtrOf bc keys (bi + 1)
      · have hkb : keys[n] / bc = bi := slice_eq keys (· / bc) R.sortedDiv bi n hk hin.1 hin.2
        rw [hkb, products_shift, Nat.min_eq_left (by omega), Nat.min_eq_left (by omega), products_blocksEnts_succ B x r hin.1]
      · have hout : products (shift (fR (keys[n] / bc)) 0 (B n)) x (fR bi + r) = [] := by
          refine products_nil _ _ _ (fun e he => ?_)
          simp only [shift, List.mem_map] at he
          obtain ⟨e', he', rfl⟩ := he
          have h1 := R.rowsB n hk e' he'
          have h2 := R.range _ (List.getElem_mem hk)
          simp only
          rcases Nat.lt_or_ge n (rowPtrOf bc keys bi) with h | h
          · have hlt : keys[n] / bc < bi := (getElem_lt_iff keys (· / bc) R.sortedDiv bi n hk).2 h
            have := R.mono' (show keys[n] / bc + 1 ≤ bi by omega) (by omega)
            omega
          · have hlt : ¬ keys[n] / bc < bi + 1 := fun h' => hin ⟨h, (getElem_lt_iff keys (· / bc) R.sortedDiv (bi + 1) n hk).1 h'⟩
            have := R.mono' (show bi + 1 ≤ keys[n] / bc by omega) (by omega)
            omega
        rw [hout, List.append_nil]
        rcases Nat.lt_or_ge n (rowPtrOf bc keys bi) with h | h
        · rw [blocksEnts_empty B (by omega), blocksEnts_empty B (by omega)]
        · rw [Nat.min_eq_right (by omega), Nat.min_eq_right (by omega)]
  rw [key keys.length (Nat.le_refl _), Nat.min_eq_right (rowPtrOf_le _ _ _)]

omit [Zero T] in
theorem rowTotals_of_rows (R : ActRep pad A bc fR fC keys nx x B F) {G : Nat → Nat → T → T}
    (hG : ∀ bi, bi < A.blockrows → RowAct pad bc fR keys x B bi (G bi)) (h0 : fR 0 = 0) {y y' : Nat → T}
    (h : ∀ bi, bi < A.blockrows → ∀ r, r < fR (bi + 1) - fR bi → y' (fR bi + r) = G bi r (y (fR bi + r))) :
    RowTotals pad (allEnts bc fR keys B keys.length) (fR A.blockrows) x y y' := by
  intro i hi
  obtain ⟨bi, hbi, r, hr, rfl⟩ : ∃ bi, bi < A.blockrows ∧ ∃ r, r < fR (bi + 1) - fR bi ∧ i = fR bi + r := by
    have key : ∀ n, n ≤ A.blockrows → i < fR n → ∃ bi, bi < n ∧ fR bi ≤ i ∧ i < fR (bi + 1) := by
      intro n
      induction n with
      | zero => intro _ h; omega
      | succ n ih =>
        intro hn h
        rcases Nat.lt_or_ge i (fR n) with h' | h'
        · obtain ⟨bi, b1, b2⟩ := ih (by omega) h'
          exact ⟨bi, by omega, b2⟩
        · exact ⟨n, by omega, h', h⟩
    obtain ⟨bi, b1, b2, b3⟩ := key _ (Nat.le_refl _) hi
    exact ⟨bi, b1, i - fR bi, by omega, by omega⟩
  rw [products_allEnts R hbi hr, h bi hbi r hr]
  exact hG bi hbi r hr _

end
end Gsb
