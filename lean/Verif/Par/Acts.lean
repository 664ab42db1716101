import Verif.Par.Formats
import Verif.Proof.ActsTop
/-
`spmv_blocked` under every schedule, for any arithmetic: the result is the one of the sequential run.
-/
namespace Gsb
variable {T : Type}

section
variable [Add T] [Mul T] [Zero T] {A : BlockMat T} {bc nx : Nat} {fR fC : Nat → Nat} {keys : List Nat}
  {x : Nat → T} {B : Nat → List (Ent T)} {F : Nat → Nat → T → T} {pad : T → Prop}

omit [Add T] [Mul T] [Zero T] in
/-- The window of one block-row after its own action. -/
theorem window_act {n : Nat} (hmono : ∀ i, i < n → fR i ≤ fR (i + 1)) {G : Nat → Nat → T → T} {y y' : Nat → T}
    (h : ∀ bi, bi < n → ∀ r, r < fR (bi + 1) - fR bi → y' (fR bi + r) = G bi r (y (fR bi + r))) {bi : Nat} (hbi : bi < n) (b : Nat) :
    window b (fR bi) (fR (bi + 1)) y' =
      arr b (fR bi) (Buf.full (fR (bi + 1) - fR bi) (winAct 0 (fR (bi + 1) - fR bi) (G bi) (fun i => y (fR bi + i)))) := by
  funext l
  rw [window_apply]
  unfold arr
  have hm := hmono bi hbi
  by_cases hl : l.1 = b ∧ fR bi ≤ l.2 ∧ l.2 < fR (bi + 1)
  · rw [if_pos hl, if_pos ⟨hl.1, hl.2.1, by show _ < _ + (fR (bi + 1) - fR bi); omega⟩]
    have := h bi hbi (l.2 - fR bi) (by omega)
    rw [Nat.add_sub_cancel' hl.2.1] at this
    rw [this]
    have w := winAct_in 0 (fR (bi + 1) - fR bi) (G bi) (fun i => y (fR bi + i)) (r := l.2 - fR bi) (by omega)
    simp only [Nat.zero_add] at w
    rw [Nat.add_sub_cancel' hl.2.1] at w
    exact congrArg (fun v => some (some v)) w.symm
  · rw [if_neg hl, if_neg]
    intro h'
    have : l.2 < fR bi + (fR (bi + 1) - fR bi) := h'.2.2
    exact hl ⟨h'.1, h'.2.1, by omega⟩

/-- Both paths. -/
theorem safe_blockedAct {M : Nat} {bal : Bool} {P : List (List Nat)} {G : Nat → Nat → T → T}
    (R : ActRep pad A bc fR fC keys nx x B F) (W : RowActs pad M A bal P bc fR keys nx x B G)
    {code : BlockCode T} (hc : CodeFor A code) (h0 : fR 0 = 0) (b : Nat) {y y' : Nat → T}
    (h : ∀ bi, bi < A.blockrows → ∀ r, r < fR (bi + 1) - fR bi → y' (fR bi + r) = G bi r (y (fR bi + r)))
    (hMr : A.blockrows < M) (hMf : fR A.blockrows < M) (n : Nat) :
    safe (fun _ m => m = arr b 0 (Buf.full (fR A.blockrows) y')) n
      (spmvBlockedP M A code bal P (Buf.full nx x) b) (arr b 0 (Buf.full (fR A.blockrows) y)) := by
  rw [← windows_all h0, ← windows_all h0]
  unfold spmvBlockedP
  cases bal with
  | true =>
    refine safe_parFor_windows (Nat.zero_le _) (fun i _ hi => R.mono i hi) (fun bi _ hbi n => ?_) n
    rw [window_act R.mono h hbi]
    refine safe_read (R.ptr bi (by omega)) (safe_read (R.ptr (bi + 1) (by omega)) (safe_read (R.rowOff bi (by omega)) ?_))
    refine Good.safe (Good.blocks hc _ _ _ _ _) (Sim.blocks hc _ _ _ _ _) ?_ n
    exact W.balanced rfl bi hbi _ 0 _ (by omega)
  | false =>
    refine safe_parFor_windows (Nat.zero_le _) (fun i _ hi => R.mono i hi) (fun bi _ hbi n => ?_) n
    rw [window_act R.mono h hbi]
    obtain ⟨c, hc1, hcM, hc2, hca⟩ := W.chunked rfl bi hbi
    have m := R.mono bi hbi
    have m2 := R.mono' (show bi + 1 ≤ A.blockrows by omega) (Nat.le_refl _)
    have hrd : rd P bi = .ok c := by simp [rd, hc1]
    refine safe_read hrd (safe_read (R.rowOff bi (by omega)) (safe_read (by rw [addM_eq (by omega)]; exact R.rowOff (bi + 1) (by omega)) ?_))
    rw [subM_eq (by omega) m, Nat.mod_eq_of_lt (show c.length < M by omega), subM_eq (by omega) (by omega)]
    exact (safe_chunk hc c (Buf.full nx x) (fR (bi + 1) - fR bi) c.length 0 (c.length - 1) b (fR bi) _ _ rfl
      (hca _ 0 (fun i => y (fR bi + i)) (by omega))).2 n

end

/-- `MatrixBlock::spmv_serial` (include/matrix/cgbr.h:77-93) as a program. -/
def MatrixBlock.spmvSerialP [Add T] [Mul T] (M : Nat) : MatrixBlock T → Buf T → Nat → Nat → Nat → Prog T
  | .coo A => A.spmvP
  | .csr A => A.spmvSerialP
  | .dense A => A.spmvP M

theorem CodeOk.matrixBlockSerial [Add T] [Mul T] (M : Nat) (A : MatrixBlock T) : CodeOk (A.spmvSerial M) (A.spmvSerialP M) := by
  cases A with
  | coo A => exact CodeOk.coo A
  | csr A => exact CodeOk.csrSerial A
  | dense A => exact CodeOk.dense M A

/-- `Cgbr`/`Cgbr2`, both paths, any arithmetic: sequential result, its rows, and every schedule. -/
theorem cgbr_acts {β : Type} [Add T] [Mul T] [Zero T] {make : MakeBlock β T} {spmv : β → Buf T → Nat → Buf T → Nat → C (Buf T)}
    {nonzeros : β → C Nat} {code : β → Buf T → Nat → Nat → Nat → Prog T} {M rows columns : Nat} {es : List (Element T)}
    {offR : List Nat} {blockrows : Nat} {offC : List Nat} {blockcols : Nat}
    (PR : Partition offR blockrows rows) (PC : Partition offC blockcols columns)
    (hne : es ≠ []) (hlen : 2 * (es.length + 2) ≤ M) (hgrid : blockrows * blockcols < M)
    (hrows : rows + 1 < M) (hcols : columns < M) (hbr : blockrows ≤ rows) (hbc : blockcols ≤ columns)
    (hin : InRange (ents es) rows columns) {res : Results β T}
    (hres : AllActs make spmv nonzeros (offF offR) (offF offC) blockcols (prepared offR blockrows offC blockcols es) res)
    (hcode : ∀ blk, (∃ k, k < (runs Element.block (prepared offR blockrows offC blockcols es)).length ∧ (res k).2.1 = blk) →
      CodeOk (spmv blk) (code blk))
    (b : Bool) (P : List (List Nat))
    (hP : b = false → PartShape blockcols blockrows (prepared offR blockrows offC blockcols es) P)
    (nx : Nat) (hnx : columns ≤ nx) (x y : Nat → T) :
    ∃ y', RowTotals (zeroPad columns x) (ents es) rows x y y' ∧ (∀ j, rows ≤ j → y' j = y j) ∧
      (∀ ny, rows ≤ ny →
        spmvBlocked M ((gbrOf res offR offC rows columns blockrows blockcols (prepared offR blockrows offC blockcols es)).toBlockMat spmv nonzeros)
          b P (Buf.full nx x) (Buf.full ny y) = .ok (Buf.full ny y')) ∧
      ∀ Y n, safe (fun _ m => m = arr Y 0 (Buf.full rows y')) n
        (spmvBlockedP M ((gbrOf res offR offC rows columns blockrows blockcols (prepared offR blockrows offC blockcols es)).toBlockMat spmv nonzeros)
          ((gbrOf res offR offC rows columns blockrows blockcols (prepared offR blockrows offC blockcols es)).code code) b P (Buf.full nx x) Y)
        (arr Y 0 (Buf.full rows y)) := by
  have H := prepared_blkIn (M := M) PR PC hne (by omega) hgrid hrows hcols hbr (by omega) hin
  have hpl := prepared_length (offR := offR) (blockrows := blockrows) (offC := offC) (blockcols := blockcols) (es := es)
  have hperm := ents_prepared_perm (offR := offR) (blockrows := blockrows) (offC := offC) (blockcols := blockcols) (es := es)
  obtain ⟨F, R⟩ := gbr_actRep (offR := offR) (offC := offC) (rows := rows) (columns := columns) H (fun i hi => PR.rd_ok i hi)
    (fun i hi => PC.rd_ok i hi) (fun i hi => PR.mono (Nat.le_succ i) hi) hres columns nx
    (fun i hi => PC.le_total hi) hnx x
  have hr : offF offR blockrows = rows := PR.at_last
  obtain ⟨G, W⟩ := rowActs_exist (M := M) (pad := zeroPad columns x) (show zeroPad columns x 0 from Or.inl rfl) R (by show blockrows < M; omega) (by show offF offR blockrows < M; omega) b P (by
      intro hb bi hbi
      obtain ⟨c, c1, c2⟩ := hP hb bi hbi
      have h1 := rowPtrOf_le blockcols (runKeys Element.block (prepared offR blockrows offC blockcols es)) (bi + 1)
      rw [runKeys_length] at h1
      have h2 := runs_length_le Element.block (prepared offR blockrows offC blockcols es)
      have h3 := c2.short
      exact ⟨c, c1, by omega, c2.size, c2.mono, c2.first, c2.last⟩)
  obtain ⟨y', -, hy2, hy3⟩ := spmvBlocked_act W R.mono rows (Nat.le_of_eq hr) y
  have hy3' : ∀ j, rows ≤ j → y' j = y j := fun j hj => hy3 j (by show offF offR blockrows ≤ j; omega)
  refine ⟨y', ?_, hy3', ?_, ?_⟩
  · have key := rowTotals_of_rows R W.tot PR.at_zero hy2
    rw [allEnts_blkEnts H] at key
    have e : offF offR (((gbrOf res offR offC rows columns blockrows blockcols
      (prepared offR blockrows offC blockcols es)).toBlockMat spmv nonzeros).blockrows) = rows := hr
    rw [e] at key
    exact key.perm hperm
  · intro ny hny
    obtain ⟨z, z1, z2, z3⟩ := spmvBlocked_act W R.mono ny (by show offF offR blockrows ≤ ny; omega) y
    rw [z1]
    have : z = y' := by
      funext j
      by_cases hj : j < rows
      · obtain ⟨bi, hbi, r, hr', rfl⟩ : ∃ bi, bi < blockrows ∧ ∃ r, r < offF offR (bi + 1) - offF offR bi ∧ j = offF offR bi + r := by
          have key : ∀ n, n ≤ blockrows → j < offF offR n → ∃ bi, bi < n ∧ offF offR bi ≤ j ∧ j < offF offR (bi + 1) := by
            intro n
            induction n with
            | zero => intro _ h; rw [PR.at_zero] at h; omega
            | succ n ih =>
              intro hn h
              rcases Nat.lt_or_ge j (offF offR n) with h' | h'
              · obtain ⟨bi, b1, b2⟩ := ih (by omega) h'
                exact ⟨bi, by omega, b2⟩
              · exact ⟨n, by omega, h', h⟩
          obtain ⟨bi, b1, b2, b3⟩ := key _ (Nat.le_refl _) (by rw [hr]; exact hj)
          exact ⟨bi, b1, j - offF offR bi, by omega, by omega⟩
        rw [z2 bi hbi r hr', hy2 bi hbi r hr']
      · rw [z3 j (by show offF offR blockrows ≤ j; omega), hy3' j (by omega)]
    rw [this]
  · intro Y n
    have key := safe_blockedAct (M := M) R W (code := (gbrOf res offR offC rows columns blockrows blockcols
      (prepared offR blockrows offC blockcols es)).code code) (CodeFor.gbr _ _ _ _ (by
        intro k blk hk
        refine hcode blk ?_
        obtain ⟨hlt, he⟩ := get_inv hk
        have hlt : k < (runs Element.block (prepared offR blockrows offC blockcols es)).length := hlt
        simp only [gbrOf] at he
        rw [List.getElem?_eq_getElem (by simpa using hlt), Option.map_some] at he
        simp at he
        exact ⟨k, hlt, he⟩)) PR.at_zero Y hy2 (by show blockrows < M; omega) (by show offF offR blockrows < M; omega) n
    change safe (fun _ m => m = arr Y 0 (Buf.full (offF offR blockrows) _)) n _ (arr Y 0 (Buf.full (offF offR blockrows) _)) at key
    rw [hr] at key
    exact key

end Gsb
