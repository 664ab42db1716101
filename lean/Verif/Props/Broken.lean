import Verif.Model.Broken
import Verif.Proof.CsbrTop
/-
C13 (`Coo_to_Bcsr`) and C14 (`Coo_to_Csbr` from a Coo2, `sort_triplets_blocks`).
-/
namespace Gsb
variable {T : Type}

theorem bcsrClear_uninit {M blockrows blockcols : Nat} (h : 0 < mulM M blockrows blockcols) (r : Buf Nat) :
    bcsrClear M blockrows blockcols none r = .error .uninit := by
  unfold bcsrClear
  rw [forLoop_step h]
  rfl

/-- **C13.** For every valid input of `Coo_to_Bcsr` — at least one non-zero, all in range, any valid partition whose
grid fits the index type — the constructor reads the uninitialised variable `b`. -/
theorem C13_bcsr_uninitialised (M rows columns : Nat) (es : List (Element T))
    (offR : List Nat) (blockrows : Nat) (offC : List Nat) (blockcols : Nat)
    (PR : Partition offR blockrows rows) (PC : Partition offC blockcols columns)
    (hne : es ≠ []) (hlen : es.length < M) (hgrid : blockrows * blockcols < M)
    (hrows : rows + 1 < M) (hcols : columns < M) (hbr : blockrows ≤ rows) (hbc : blockcols ≤ columns)
    (hin : InRange (ents es) rows columns) :
    cooToBcsr M none es rows columns offR blockrows offC blockcols = .error .uninit := by
  have H := prepared_blkIn (M := M) PR PC hne hlen hgrid hrows hcols hbr (by omega) hin
  unfold cooToBcsr
  rw [calculateBlockId_spec PR PC (by omega) (by omega) (by omega) hin, ok_bind]
  have hn := countBlocks_spec M (prepared offR blockrows offC blockcols es) H.ne H.len H.sortedB
  unfold prepared at hn
  simp only
  rw [hn, ok_bind, checkPartition_ok hbr hbc (fun i hi => PR.rd_ok i hi) (fun i hi => PC.rd_ok i hi) PR.at_last PC.at_last, ok_bind]
  have hpos : 0 < mulM M blockrows blockcols := by
    rw [mulM_eq hgrid]
    obtain ⟨e, he⟩ := List.exists_mem_of_ne_nil es hne
    have := hin _ (List.mem_map_of_mem (f := NZ.toEnt) he)
    exact Nat.mul_pos (PR.pos this.1) (PC.pos this.2)
  rw [bcsrClear_uninit hpos]
  rfl

/-- C13, on every input whatever: whenever the number of blocks computed in the index type is not zero, the
constructor does not return a matrix. -/
theorem C13_bcsr_never_returns (M rows columns : Nat) (es : List (Element T))
    (offR : List Nat) (blockrows : Nat) (offC : List Nat) (blockcols : Nat)
    (h : blockrows * blockcols % M ≠ 0) (r : Bcsr T × List (Element T)) :
    cooToBcsr M none es rows columns offR blockrows offC blockcols ≠ .ok r := by
  intro hr
  unfold cooToBcsr at hr
  cases h1 : calculateBlockId M es offR blockrows offC blockcols with
  | error e => rw [h1] at hr; cases hr
  | ok es' =>
    rw [h1, ok_bind] at hr
    cases h2 : countBlocks M (sortElementsBlocks es') with
    | error e => simp only [h2] at hr; cases hr
    | ok n =>
      simp only [h2, ok_bind] at hr
      cases h3 : checkPartition offR blockrows rows offC blockcols columns with
      | error e => rw [h3] at hr; cases hr
      | ok u =>
        rw [h3, ok_bind, bcsrClear_uninit (Nat.pos_of_ne_zero h)] at hr
        cases hr

/-- C13 on a concrete 4×4 input with a 2×2 partition. -/
example : cooToBcsr (2 ^ 32) none [(⟨3, 1, 5, 0⟩ : Element Int), ⟨0, 2, 7, 0⟩] 4 4 [0, 2, 4] 2 [0, 2, 4] 2 = .error .uninit :=
  C13_bcsr_uninitialised _ _ _ _ _ _ _ _ ⟨rfl, rfl, rfl, by decide⟩ ⟨rfl, rfl, rfl, by decide⟩ (by decide) (by decide)
    (by decide) (by decide) (by decide) (by decide) (by decide) (by decide)

/-! ### C14 -/

/-- The inner loop of `sort_triplets_blocks` walks off the array when every row is below the bound. -/
theorem walk_oob {M : Nat} {ts : List (Triplet T)} {offR : List Nat} {br o : Nat} (hM : ts.length < M)
    (ho : rd offR (br + 1) = .ok o) (hall : ∀ t ∈ ts, t.row < o) (n i : Nat) (hi : i ≤ ts.length) (hn : ts.length < n + i) :
    whileLoop (fun i => do
        let t ← rd ts i
        let o ← rd offR (br + 1)
        .ok (decide (t.row < o))) (fun i => .ok (addM M i 1)) n i = .error .oob := by
  induction n generalizing i with
  | zero => omega
  | succ n ih =>
    unfold whileLoop
    by_cases h : i < ts.length
    · simp only [ho] at ih ⊢
      rw [rd_ok h, ok_bind, ok_bind, ok_bind]
      rw [if_pos (by simpa using hall _ (List.getElem_mem h)), ok_bind, addM_eq (by omega)]
      exact ih (i + 1) h (by omega)
    · have : rd ts i = .error .oob := by unfold rd; rw [List.getElem?_eq_none (by omega)]
      rw [this]; rfl

/-- The search before the last block-row either runs past the array or stops inside it. -/
theorem walk_bound {M : Nat} {ts : List (Triplet T)} {offR : List Nat} {br o : Nat} (hM : ts.length < M)
    (ho : rd offR (br + 1) = .ok o) (n i : Nat) (hi : i ≤ ts.length) (hn : ts.length < n + i) :
    (∃ j, j ≤ ts.length ∧ whileLoop (fun i => do
        let t ← rd ts i
        let o ← rd offR (br + 1)
        .ok (decide (t.row < o))) (fun i => .ok (addM M i 1)) n i = .ok j) ∨
    whileLoop (fun i => do
        let t ← rd ts i
        let o ← rd offR (br + 1)
        .ok (decide (t.row < o))) (fun i => .ok (addM M i 1)) n i = .error .oob := by
  induction n generalizing i with
  | zero => omega
  | succ n ih =>
    unfold whileLoop
    by_cases h : i < ts.length
    · simp only [ho] at ih ⊢
      rw [rd_ok h, ok_bind, ok_bind, ok_bind]
      by_cases hc : ts[i].row < o
      · rw [if_pos (by simpa using hc), ok_bind, addM_eq (by omega)]
        exact ih (i + 1) h (by omega)
      · rw [if_neg (by simpa using hc)]
        exact Or.inl ⟨i, hi, rfl⟩
    · have : rd ts i = .error .oob := by unfold rd; rw [List.getElem?_eq_none (by omega)]
      rw [this]; exact Or.inr rfl

theorem locate_oob {M : Nat} {ts after : List (Triplet T)} {offR : List Nat} {blockrows rows : Nat} (hM : (ts ++ after).length < M)
    (PR : Partition offR blockrows rows) (hb : 0 < blockrows) (hbM : blockrows + 1 < M) (hall : ∀ t ∈ ts ++ after, t.row < rows) :
    locateBlockrows M ts after offR blockrows = .error .oob := by
  unfold locateBlockrows
  generalize hL : ts ++ after = L at *
  simp only
  rw [addM_eq hbM, Buf.put_ok (by simp), ok_bind]
  have key : ∀ m (i : Nat) (brp : Buf Nat), m ≤ blockrows → 0 < m → i ≤ L.length → brp.len = blockrows + 1 →
      forLoop (blockrows - m) blockrows (i, brp) (fun br s => do
        let i ← whileLoop (fun i => do
            let t ← rd L i
            let o ← rd offR (br + 1)
            .ok (decide (t.row < o))) (fun i => .ok (addM M i 1)) (L.length + 1) s.1
        let brp ← s.2.put (br + 1) i
        .ok (i, brp)) = .error .oob := by
    intro m
    induction m with
    | zero => intro i brp _ h; omega
    | succ m ih =>
      intro i brp hm _ hi hl
      rw [forLoop_step (by omega)]
      by_cases h0 : m = 0
      · subst h0
        have e : blockrows - (0 + 1) + 1 = blockrows := by omega
        rw [walk_oob hM (o := rows) (by rw [e, PR.rd_ok _ (Nat.le_refl _), PR.at_last]) hall _ i hi (by omega)]
        rfl
      · rcases walk_bound hM (PR.rd_ok (blockrows - (m + 1) + 1) (by omega)) (L.length + 1) i hi (by omega) with ⟨j, hj, h⟩ | h
        · rw [h, ok_bind, Buf.put_ok (by show _ < brp.len; omega), ok_bind, ok_bind]
          have := ih j ⟨brp.len, fun k => if k = blockrows - (m + 1) + 1 then some j else brp.dat k⟩ (by omega) (by omega) hj hl
          rw [show blockrows - (m + 1) + 1 = blockrows - m by omega] at *
          exact this
        · rw [h]; rfl
  have := key blockrows 0 ⟨blockrows + 1, fun k => if k = 0 then some 0 else (Buf.uninit (blockrows + 1) : Buf Nat).dat k⟩
    (Nat.le_refl _) hb (Nat.zero_le _) rfl
  rw [Nat.sub_self] at this
  simp only [Buf.uninit_len]
  rw [this]
  rfl

/-- **C14.** `sort_triplets_blocks` reads past the end of the array for every array of non-zeros whose rows are in
range (even an empty one) and every valid block partition of the rows — whatever `std::sort` would do afterwards.  If the memory
behind the array can be read, it reads on until it finds what looks like a row out of range; if it never does, it reads all that can
be read, and more. -/
theorem C14_sort_triplets_blocks_oob (M rows : Nat) (stdSort : Nat → Nat → List (Triplet T) → C (List (Triplet T)))
    (ts after : List (Triplet T)) (offR : List Nat) (blockrows : Nat) (PR : Partition offR blockrows rows)
    (hb : 0 < blockrows) (hM : (ts ++ after).length < M) (hbM : blockrows + 1 < M) (hin : ∀ t ∈ ts, t.row < rows)
    (hafter : ∀ t ∈ after, t.row < rows) :
    sortTripletsBlocks M stdSort ts after offR blockrows = .error .oob := by
  unfold sortTripletsBlocks
  have hp : (pssSort ltRow ts).Perm ts := List.mergeSort_perm _ _
  simp only
  rw [locate_oob (by rw [List.length_append] at hM ⊢; rw [hp.length_eq]; exact hM) PR hb hbM (fun t ht => by
    rcases List.mem_append.1 ht with h | h
    · exact hin t (hp.mem_iff.1 h)
    · exact hafter t h)]
  rfl

/-- **C14.** Hence `Coo_to_Csbr` from a Coo2 never builds a matrix: on every in-range input with a valid partition it
accesses memory outside the array. -/
theorem C14_csbr_from_coo2_oob [Add T] [Mul T] (M workers rows columns : Nat)
    (stdSort : Nat → Nat → List (Triplet T) → C (List (Triplet T)))
    (ts after : List (Triplet T)) (offR : List Nat) (blockrows : Nat) (offC : List Nat) (blockcols : Nat)
    (PR : Partition offR blockrows rows) (PC : Partition offC blockcols columns)
    (hb : 0 < blockrows) (hM : (ts ++ after).length < M) (hbM : blockrows + 1 < M)
    (hbr : blockrows ≤ rows) (hbc : blockcols ≤ columns) (hin : InRange ts rows columns) (hafter : ∀ t ∈ after, t.row < rows) :
    cooToCsbrCoo2 M workers stdSort ts after rows columns offR blockrows offC blockcols = .error .oob := by
  unfold cooToCsbrCoo2
  rw [checkPartition_ok hbr hbc (fun i hi => PR.rd_ok i hi) (fun i hi => PC.rd_ok i hi) PR.at_last PC.at_last, ok_bind,
    C14_sort_triplets_blocks_oob M rows stdSort ts after offR blockrows PR hb hM hbM (fun t ht => (hin t ht).1) hafter]
  rfl

/-- C14 on a concrete input. -/
example : cooToCsbrCoo2 (2 ^ 32) 3 (fun _ _ l => .ok l)
    [(⟨3, 1, 5⟩ : Ent Int), ⟨0, 2, 7⟩] [] 4 4 [0, 2, 4] 2 [0, 2, 4] 2 = .error .oob :=
  C14_csbr_from_coo2_oob _ _ _ _ _ _ _ _ _ _ _ ⟨rfl, rfl, rfl, by decide⟩ ⟨rfl, rfl, rfl, by decide⟩ (by decide) (by decide)
    (by decide) (by decide) (by decide) (by decide) (by simp)

/-- C14 where the memory behind the array happens to be full of zeros. -/
example : cooToCsbrCoo2 (2 ^ 32) 3 (fun _ _ l => .ok l)
    [(⟨3, 1, 5⟩ : Ent Int), ⟨0, 2, 7⟩] [⟨0, 0, 0⟩, ⟨0, 0, 0⟩, ⟨0, 0, 0⟩] 4 4 [0, 2, 4] 2 [0, 2, 4] 2 = .error .oob :=
  C14_csbr_from_coo2_oob _ _ _ _ _ _ _ _ _ _ _ ⟨rfl, rfl, rfl, by decide⟩ ⟨rfl, rfl, rfl, by decide⟩ (by decide) (by decide)
    (by decide) (by decide) (by decide) (by decide) (by decide)

end Gsb
