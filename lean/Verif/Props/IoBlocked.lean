import Verif.Proof.IoBlocked
import Verif.Props.Csbr
/-
C40 (blocked files into Csbr and Csbr2) and C55 (64-bit indices).
-/
namespace Gsb
variable {T : Type} {w : Nat} {cv : Codec T}

/-! ### The readers simulate the constructors -/

/-- The readers do not compute the width of a block. -/
def Cur.strip (c : Cur) : Cur := { c with bcSize := 0 }

theorem blockCoords_io {M : Nat} {offR offC : List Nat} {blockcols b : Nat} {c : Nat × Nat × Cur}
    (h : blockCoords M offR offC blockcols b = .ok c) :
    blockCoordsIo M offR offC blockcols b = .ok (c.1, c.2.1, c.2.2.strip) := by
  unfold blockCoords at h
  obtain ⟨br, h1, h⟩ := bind_ok h
  obtain ⟨bc, h2, h⟩ := bind_ok h
  obtain ⟨x, h3, h⟩ := bind_ok h
  obtain ⟨y, h4, h⟩ := bind_ok h
  obtain ⟨z, h5, h⟩ := bind_ok h
  obtain ⟨u, h6, h⟩ := bind_ok h
  cases h
  unfold blockCoordsIo
  rw [h1, ok_bind, h2, ok_bind, h3, ok_bind, h4, ok_bind, h5, ok_bind]
  rfl

theorem assertInBlock_io {M : Nat} {c : Cur} {row col : Nat} (h : assertInBlock M c row col = .ok ()) :
    assertInBlockIo M c.strip row col = .ok () := by
  unfold assertInBlock at h
  obtain ⟨_, h1, h⟩ := bind_ok h
  obtain ⟨_, h2, h⟩ := bind_ok h
  obtain ⟨_, h3, h⟩ := bind_ok h
  unfold assertInBlockIo
  have : addM M c.strip.brSize c.strip.brOff = addM M c.brOff c.brSize := by
    simp only [addM, Cur.strip]; rw [Nat.add_comm]
  rw [this]
  show (cassert (decide (c.brOff ≤ row)) >>= fun _ => _) = _
  rw [h1, ok_bind, h2, ok_bind]
  exact h3

theorem needCur_io {c : Option Cur} {x : Cur} (h : needCur c = .ok x) : needCur (c.map Cur.strip) = .ok x.strip := by
  cases c with
  | none => cases h
  | some c => cases h; rfl

/-- State of the reader against state of the constructor. -/
def stripCsbr (s : CsbrFill T) : CsbrFill T := { s with cur := s.cur.map Cur.strip }

theorem csbrNewBlock_io {M : Nat} {offR offC : List Nat} {blockcols : Nat} (i bi b : Nat) (s s' : CsbrFill T)
    (h : csbrNewBlock M offR offC blockcols i bi b s = .ok s') :
    csbrNewBlockIo M offR offC blockcols i bi b (stripCsbr s) = .ok (stripCsbr s') := by
  unfold csbrNewBlock at h
  obtain ⟨c, h1, h⟩ := bind_ok h
  obtain ⟨x, h2, h⟩ := bind_ok h
  obtain ⟨y, h3, h⟩ := bind_ok h
  obtain ⟨z, h4, h⟩ := bind_ok h
  cases h
  unfold csbrNewBlockIo
  rw [blockCoords_io h1, ok_bind]
  simp only [stripCsbr]
  rw [h2, ok_bind, h3, ok_bind]
  show (s.blocks.put bi ⟨c.2.2.brSize, i, Buf.filled (addM M c.2.2.brSize 1) 0⟩ >>= fun _ => _) = _
  rw [h4]
  rfl

theorem csbrElement_io {M : Nat} {es : List (Element T)} (i bi : Nat) (s s' : CsbrFill T) (hi : i < es.length)
    (h : csbrElement M es i bi s = .ok s') : csbrElementIo M es[i] i bi (stripCsbr s) = .ok (stripCsbr s') := by
  unfold csbrElement at h
  rw [rd_ok hi, ok_bind] at h
  obtain ⟨c, h1, h⟩ := bind_ok h
  obtain ⟨u, h2, h⟩ := bind_ok h
  obtain ⟨blk, h3, h⟩ := bind_ok h
  obtain ⟨rp, h4, h⟩ := bind_ok h
  obtain ⟨bl, h5, h⟩ := bind_ok h
  obtain ⟨ci, h6, h⟩ := bind_ok h
  obtain ⟨v, h7, h⟩ := bind_ok h
  cases h
  unfold csbrElementIo
  simp only [stripCsbr]
  rw [needCur_io h1, ok_bind, assertInBlock_io h2, ok_bind, h3, ok_bind]
  show (incr M blk.rowPtr (addM M (subM M es[i].row c.brOff) 1) >>= fun _ => _) = _
  rw [h4, ok_bind, h5, ok_bind]
  show (s.colInd.put i (subM M es[i].col c.bcOff) >>= fun _ => _) = _
  rw [h6, ok_bind, h7]
  rfl

/-- State of the reader against state of the constructor. -/
def stripCsbr2 (s : Csbr2Fill T) : Csbr2Fill T := { s with cur := s.cur.map Cur.strip }

theorem csbr2NewBlock_io {M : Nat} {offR offC : List Nat} {blockcols : Nat} (i bi b : Nat) (s s' : Csbr2Fill T)
    (h : csbr2NewBlock M offR offC blockcols i bi b s = .ok s') :
    csbr2NewBlockIo M offR offC blockcols i bi b (stripCsbr2 s) = .ok (stripCsbr2 s') := by
  unfold csbr2NewBlock at h
  obtain ⟨c, h1, h⟩ := bind_ok h
  obtain ⟨x, h2, h⟩ := bind_ok h
  obtain ⟨y, h3, h⟩ := bind_ok h
  cases h
  unfold csbr2NewBlockIo
  rw [blockCoords_io h1, ok_bind]
  simp only [stripCsbr2]
  rw [h2, ok_bind]
  show (s.rowPtr.put bi (Buf.filled (addM M c.2.2.brSize 1) 0) >>= fun _ => _) = _
  rw [h3]
  rfl

theorem csbr2Element_io {M : Nat} {es : List (Element T)} (i bi : Nat) (s s' : Csbr2Fill T) (hi : i < es.length)
    (h : csbr2Element M es i bi s = .ok s') : csbr2ElementIo M es[i] i bi (stripCsbr2 s) = .ok (stripCsbr2 s') := by
  unfold csbr2Element at h
  rw [rd_ok hi, ok_bind] at h
  obtain ⟨c, h1, h⟩ := bind_ok h
  obtain ⟨u, h2, h⟩ := bind_ok h
  obtain ⟨rp, h3, h⟩ := bind_ok h
  obtain ⟨rp', h4, h⟩ := bind_ok h
  obtain ⟨rps, h5, h⟩ := bind_ok h
  obtain ⟨ci, h6, h⟩ := bind_ok h
  obtain ⟨v, h7, h⟩ := bind_ok h
  cases h
  unfold csbr2ElementIo
  simp only [stripCsbr2]
  rw [needCur_io h1, ok_bind, assertInBlock_io h2, ok_bind, h3, ok_bind]
  show (incr M rp (addM M (subM M es[i].row c.brOff) 1) >>= fun _ => _) = _
  rw [h4, ok_bind, h5, ok_bind, h6, ok_bind, h7]
  rfl

/-! ### The header -/

theorem readBlockedCommon_ok (hw : 0 < w) (fs : FS) (name : String) (rows columns blockrows blockcols n nnz : Nat)
    (offR offC : List Nat) (t : Bytes)
    (hf : fs name = some (packed (idx w) [rows, columns, nnz, blockrows, blockcols, n] ++ t))
    (hr : rows < 256 ^ w) (hc : columns < 256 ^ w) (hz : nnz < 256 ^ w) (hbr : blockrows < 256 ^ w)
    (hbc : blockcols < 256 ^ w) (hn : n < 256 ^ w)
    (h1 : rd offR blockrows = .ok rows) (h2 : rd offC blockcols = .ok columns) :
    readBlockedCommon w fs name offR blockrows offC blockcols =
      .ok (some (⟨rows, columns, nnz, n⟩, ⟨packed (idx w) [rows, columns, nnz, blockrows, blockcols, n] ++ t, 6 * w⟩)) := by
  have hh := readWords_ok hw [rows, columns, nnz, blockrows, blockcols, n] (by
    intro a ha
    simp only [List.mem_cons, List.not_mem_nil, or_false] at ha
    rcases ha with rfl | rfl | rfl | rfl | rfl | rfl <;> assumption)
    ⟨packed (idx w) [rows, columns, nnz, blockrows, blockcols, n] ++ t, 0⟩ t (by simp [In.rest])
  simp only [List.length_cons, List.length_nil, List.map_cons, List.map_nil, Nat.zero_add] at hh
  unfold readBlockedCommon
  rw [hf]
  simp only
  rw [hh]
  simp only [BEq.rfl, cassert_true, ok_bind, h1, h2]

/-- A header cut short fails the assertion on the number of words read. -/
theorem readBlockedCommon_cut (hw : 0 < w) (fs : FS) (name : String) (offR offC : List Nat) (blockrows blockcols : Nat)
    (data : Bytes) (hf : fs name = some data) (hd : data.length < 6 * w) :
    readBlockedCommon w fs name offR blockrows offC blockcols = .error .assertion := by
  have h := readWords_short hw 6 ⟨data, 0⟩ (by simpa [In.rest] using hd)
  unfold readBlockedCommon
  rw [hf]
  simp only
  split
  · rename_i h6 _
    omega
  · rfl

theorem cassert_iff {b : Bool} {u : Unit} : cassert b = .ok u ↔ b = true := by
  cases b
  · constructor
    · intro h; cases h
    · intro h; cases h
  · exact ⟨fun _ => rfl, fun _ => rfl⟩

theorem checkPartition_rd {offR offC : List Nat} {blockrows rows blockcols columns : Nat}
    (h : checkPartition offR blockrows rows offC blockcols columns = .ok ()) :
    rd offR blockrows = .ok rows ∧ rd offC blockcols = .ok columns := by
  unfold checkPartition at h
  obtain ⟨_, -, h⟩ := bind_ok h
  obtain ⟨_, -, h⟩ := bind_ok h
  obtain ⟨r, h1, h⟩ := bind_ok h
  obtain ⟨_, h2, h⟩ := bind_ok h
  obtain ⟨c, h3, h⟩ := bind_ok h
  rw [cassert_iff] at h h2
  simp only [beq_iff_eq] at h h2
  subst h h2
  exact ⟨h1, h3⟩

/-! ### Csbr -/

/-- The file of a block-sorted element array. -/
abbrev fileOf (w : Nat) (cv : Codec T) (rows columns blockrows blockcols n : Nat) (es : List (Element T)) : Bytes :=
  blockFile w cv rows columns blockrows blockcols n (es.map recOf)

/-- Whenever the constructor succeeds on block-sorted elements, reading their file gives the same
matrix, but for the partition, and reading any proper prefix of the file fails. -/
theorem readBlockedCsbr_sim [Add T] [Mul T] (hw : 0 < w) (hv : cv.Exact (fun _ => True)) (hU : uintMax (256 ^ w) = 256 ^ w - 1)
    {workers rows columns blockrows blockcols : Nat} {es : List (Element T)} {offR offC : List Nat}
    (hfits : ∀ e ∈ es, Fits (256 ^ w) e) (hsorted : es.Pairwise (fun a b => a.block ≤ b.block))
    (hr : rows < 256 ^ w) (hc : columns < 256 ^ w) (hz : es.length < 256 ^ w) (hbr : blockrows < 256 ^ w)
    (hbc : blockcols < 256 ^ w) (A : Csbr T) (hn : A.nnzblocks < 256 ^ w)
    (hA : csbrBuild (256 ^ w) workers es rows columns offR blockrows offC blockcols = .ok A) (name : String) :
    (∀ fs : FS, fs name = some (fileOf w cv rows columns blockrows blockcols A.nnzblocks es) →
      readBlockedCsbr w cv fs name offR blockrows offC blockcols = .ok (some (0, some { A with partition := [] }))) ∧
    (∀ fs : FS, ∀ k, k < (fileOf w cv rows columns blockrows blockcols A.nnzblocks es).length →
      fs name = some ((fileOf w cv rows columns blockrows blockcols A.nnzblocks es).take k) →
      readBlockedCsbr w cv fs name offR blockrows offC blockcols =
        if k < 6 * w then .error .assertion else .ok (some (-4, none))) := by
  unfold csbrBuild at hA
  obtain ⟨n, h1, hA⟩ := bind_ok hA
  obtain ⟨_, h2, hA⟩ := bind_ok hA
  obtain ⟨s, h3, hA⟩ := bind_ok hA
  obtain ⟨blocks, h4, hA⟩ := bind_ok hA
  obtain ⟨brp, h5, hA⟩ := bind_ok hA
  obtain ⟨t, h6, hA⟩ := bind_ok hA
  obtain ⟨_, h7, hA⟩ := bind_ok hA
  obtain ⟨P, h8, hA⟩ := bind_ok hA
  cases hA
  simp only at hn ⊢
  obtain ⟨g1, g2⟩ := checkPartition_rd h2
  rw [fileOf, blockFile_eq]
  have hl6 : (packed (idx w) [rows, columns, es.length, blockrows, blockcols, n]).length = 6 * w := by
    rw [packed_length (idx_exact hw)]; rfl
  refine ⟨fun fs hf => ?_, fun fs k hk hf => ?_⟩
  · unfold readBlockedCsbr
    rw [readBlockedCommon_ok hw fs name rows columns blockrows blockcols n es.length offR offC _ hf hr hc hz hbr hbc hn g1 g2, ok_bind]
    simp only
    obtain ⟨s', e1, e2, -⟩ := loop_sim (cv := cv) (φ := stripCsbr) (nb' := csbrNewBlockIo (256 ^ w) offR offC blockcols)
      (el' := csbrElementIo (256 ^ w)) hw hv hU hfits hsorted (fun i bi b s s' h => csbrNewBlock_io i bi b s s' h)
      (fun i bi s s' hi h => csbrElement_io i bi s s' hi h) _ s h3
      ⟨packed (idx w) [rows, columns, es.length, blockrows, blockcols, n] ++ es.flatMap (recB w cv), 6 * w⟩ []
      es.length (Nat.le_refl _) (by simp only [In.rest]; rw [List.drop_left' hl6]; simp)
    rw [h3] at e1
    cases e1
    have e3 : blockedLoop w cv (csbrNewBlockIo (256 ^ w) offR offC blockcols) (csbrElementIo (256 ^ w)) es.length
        ⟨packed (idx w) [rows, columns, es.length, blockrows, blockcols, n] ++ es.flatMap (recB w cv), 6 * w⟩
        (⟨none, Buf.filled (addM (256 ^ w) blockrows 1) 0, Buf.uninit n, Buf.uninit n, Buf.uninit es.length, Buf.uninit es.length⟩ : CsbrFill T) =
        .ok (0, ⟨packed (idx w) [rows, columns, es.length, blockrows, blockcols, n] ++ es.flatMap (recB w cv),
          6 * w + es.length * (3 * w + cv.size)⟩, ⟨s.blockIndex, s.prevB, stripCsbr s.st⟩) := by
      unfold blockedLoop
      rw [hU]
      exact e2
    rw [e3, ok_bind]
    simp only [ne_eq, not_true_eq_false, if_false, stripCsbr]
    rw [h4, ok_bind, h5, ok_bind, h6, ok_bind, h7, ok_bind]
  · rw [List.length_append, hl6, recs_length hv] at hk
    by_cases hk6 : k < 6 * w
    · rw [if_pos hk6]
      unfold readBlockedCsbr
      rw [readBlockedCommon_cut hw fs name offR offC blockrows blockcols _ hf (by rw [List.length_take]; omega)]
      rfl
    · rw [if_neg hk6]
      rw [List.take_append, List.take_of_length_le (by omega), hl6] at hf
      unfold readBlockedCsbr
      rw [readBlockedCommon_ok hw fs name rows columns blockrows blockcols n es.length offR offC _ hf hr hc hz hbr hbc hn g1 g2, ok_bind]
      simp only
      obtain ⟨f', s', e3⟩ := loop_cut (cv := cv) (φ := stripCsbr) (nb' := csbrNewBlockIo (256 ^ w) offR offC blockcols)
        (el' := csbrElementIo (256 ^ w)) hw hv hU hfits hsorted (fun i bi b s s' h => csbrNewBlock_io i bi b s s' h)
        (fun i bi s s' hi h => csbrElement_io i bi s s' hi h) _ s h3
        ⟨packed (idx w) [rows, columns, es.length, blockrows, blockcols, n] ++ (es.flatMap (recB w cv)).take (k - 6 * w), 6 * w⟩
        (k - 6 * w) (by omega) (by simp only [In.rest]; rw [List.drop_left' hl6])
      have e4 : blockedLoop w cv (csbrNewBlockIo (256 ^ w) offR offC blockcols) (csbrElementIo (256 ^ w)) es.length
        ⟨packed (idx w) [rows, columns, es.length, blockrows, blockcols, n] ++ (es.flatMap (recB w cv)).take (k - 6 * w), 6 * w⟩
        (⟨none, Buf.filled (addM (256 ^ w) blockrows 1) 0, Buf.uninit n, Buf.uninit n, Buf.uninit es.length, Buf.uninit es.length⟩ : CsbrFill T) = .ok (-4, f', s') := e3
      rw [e4, ok_bind]
      simp only [ne_eq, Int.reduceNeg, Int.neg_eq_zero, OfNat.ofNat_ne_zero, not_false_eq_true, if_true]

/-- The same for `Csbr2`. -/
theorem readBlockedCsbr2_sim (hw : 0 < w) (hv : cv.Exact (fun _ => True)) (hU : uintMax (256 ^ w) = 256 ^ w - 1)
    {rows columns blockrows blockcols : Nat} {es : List (Element T)} {offR offC : List Nat}
    (hfits : ∀ e ∈ es, Fits (256 ^ w) e) (hsorted : es.Pairwise (fun a b => a.block ≤ b.block))
    (hr : rows < 256 ^ w) (hc : columns < 256 ^ w) (hz : es.length < 256 ^ w) (hbr : blockrows < 256 ^ w)
    (hbc : blockcols < 256 ^ w) (A : Csbr2 T) (hn : A.nnzblocks < 256 ^ w)
    (hA : csbr2Build (256 ^ w) es rows columns offR blockrows offC blockcols = .ok A) (name : String) :
    (∀ fs : FS, fs name = some (fileOf w cv rows columns blockrows blockcols A.nnzblocks es) →
      readBlockedCsbr2 w cv fs name offR blockrows offC blockcols = .ok (some (0, some A))) ∧
    (∀ fs : FS, ∀ k, k < (fileOf w cv rows columns blockrows blockcols A.nnzblocks es).length →
      fs name = some ((fileOf w cv rows columns blockrows blockcols A.nnzblocks es).take k) →
      readBlockedCsbr2 w cv fs name offR blockrows offC blockcols =
        if k < 6 * w then .error .assertion else .ok (some (-4, none))) := by
  unfold csbr2Build at hA
  obtain ⟨n, h1, hA⟩ := bind_ok hA
  obtain ⟨_, h2, hA⟩ := bind_ok hA
  obtain ⟨s, h3, hA⟩ := bind_ok hA
  obtain ⟨brp, h4, hA⟩ := bind_ok hA
  obtain ⟨rps, h5, hA⟩ := bind_ok hA
  obtain ⟨t, h6, hA⟩ := bind_ok hA
  obtain ⟨_, h7, hA⟩ := bind_ok hA
  cases hA
  simp only at hn ⊢
  obtain ⟨g1, g2⟩ := checkPartition_rd h2
  rw [fileOf, blockFile_eq]
  have hl6 : (packed (idx w) [rows, columns, es.length, blockrows, blockcols, n]).length = 6 * w := by
    rw [packed_length (idx_exact hw)]; rfl
  refine ⟨fun fs hf => ?_, fun fs k hk hf => ?_⟩
  · unfold readBlockedCsbr2
    rw [readBlockedCommon_ok hw fs name rows columns blockrows blockcols n es.length offR offC _ hf hr hc hz hbr hbc hn g1 g2, ok_bind]
    simp only
    obtain ⟨s', e1, e2, -⟩ := loop_sim (cv := cv) (φ := stripCsbr2) (nb' := csbr2NewBlockIo (256 ^ w) offR offC blockcols)
      (el' := csbr2ElementIo (256 ^ w)) hw hv hU hfits hsorted (fun i bi b s s' h => csbr2NewBlock_io i bi b s s' h)
      (fun i bi s s' hi h => csbr2Element_io i bi s s' hi h) _ s h3
      ⟨packed (idx w) [rows, columns, es.length, blockrows, blockcols, n] ++ es.flatMap (recB w cv), 6 * w⟩ []
      es.length (Nat.le_refl _) (by simp only [In.rest]; rw [List.drop_left' hl6]; simp)
    rw [h3] at e1
    cases e1
    have e3 : blockedLoop w cv (csbr2NewBlockIo (256 ^ w) offR offC blockcols) (csbr2ElementIo (256 ^ w)) es.length
        ⟨packed (idx w) [rows, columns, es.length, blockrows, blockcols, n] ++ es.flatMap (recB w cv), 6 * w⟩
        (⟨none, Buf.filled (addM (256 ^ w) blockrows 1) 0, Buf.uninit n, Buf.uninit es.length, Buf.uninit es.length⟩ : Csbr2Fill T) =
        .ok (0, ⟨packed (idx w) [rows, columns, es.length, blockrows, blockcols, n] ++ es.flatMap (recB w cv),
          6 * w + es.length * (3 * w + cv.size)⟩, ⟨s.blockIndex, s.prevB, stripCsbr2 s.st⟩) := by
      unfold blockedLoop
      rw [hU]
      exact e2
    rw [e3, ok_bind]
    simp only [ne_eq, not_true_eq_false, if_false, stripCsbr2]
    rw [h4, ok_bind, h6, ok_bind, h7, ok_bind, h5, ok_bind]
  · rw [List.length_append, hl6, recs_length hv] at hk
    by_cases hk6 : k < 6 * w
    · rw [if_pos hk6]
      unfold readBlockedCsbr2
      rw [readBlockedCommon_cut hw fs name offR offC blockrows blockcols _ hf (by rw [List.length_take]; omega)]
      rfl
    · rw [if_neg hk6]
      rw [List.take_append, List.take_of_length_le (by omega), hl6] at hf
      unfold readBlockedCsbr2
      rw [readBlockedCommon_ok hw fs name rows columns blockrows blockcols n es.length offR offC _ hf hr hc hz hbr hbc hn g1 g2, ok_bind]
      simp only
      obtain ⟨f', s', e3⟩ := loop_cut (cv := cv) (φ := stripCsbr2) (nb' := csbr2NewBlockIo (256 ^ w) offR offC blockcols)
        (el' := csbr2ElementIo (256 ^ w)) hw hv hU hfits hsorted (fun i bi b s s' h => csbr2NewBlock_io i bi b s s' h)
        (fun i bi s s' hi h => csbr2Element_io i bi s s' hi h) _ s h3
        ⟨packed (idx w) [rows, columns, es.length, blockrows, blockcols, n] ++ (es.flatMap (recB w cv)).take (k - 6 * w), 6 * w⟩
        (k - 6 * w) (by omega) (by simp only [In.rest]; rw [List.drop_left' hl6])
      have e4 : blockedLoop w cv (csbr2NewBlockIo (256 ^ w) offR offC blockcols) (csbr2ElementIo (256 ^ w)) es.length
        ⟨packed (idx w) [rows, columns, es.length, blockrows, blockcols, n] ++ (es.flatMap (recB w cv)).take (k - 6 * w), 6 * w⟩
        (⟨none, Buf.filled (addM (256 ^ w) blockrows 1) 0, Buf.uninit n, Buf.uninit es.length, Buf.uninit es.length⟩ : Csbr2Fill T) = .ok (-4, f', s') := e3
      rw [e4, ok_bind]
      simp only [ne_eq, Int.reduceNeg, Int.neg_eq_zero, OfNat.ofNat_ne_zero, not_false_eq_true, if_true]

/-! ### 32-bit indices -/

theorem uintMax32 : uintMax (256 ^ 4) = 256 ^ 4 - 1 := by decide

/-- **C40.** `Csbr`, 32-bit indices.  For every matrix and partition: the in-memory construction sorts
the entries and succeeds; writing those entries with `write_bin_blocked` and reading the file with
`read_bin_blocked` gives the same matrix in every member except the (unused) partition, and the same
product for all vectors; no proper prefix of the file is accepted. -/
theorem C40_csbr [Add T] [Mul T] [Zero T] (hv : cv.Exact (fun _ => True)) (workers rows columns : Nat) (es : List (Element T))
    (offR : List Nat) (blockrows : Nat) (offC : List Nat) (blockcols : Nat)
    (PR : Partition offR blockrows rows) (PC : Partition offC blockcols columns)
    (hw : 0 < workers) (hne : es ≠ []) (hlen : es.length < 2 ^ 32) (hgrid : blockrows * blockcols < 2 ^ 32)
    (hrows : rows + 1 < 2 ^ 32) (hcols : columns < 2 ^ 32) (hbr : blockrows ≤ rows) (hbc : blockcols ≤ columns)
    (hin : InRange (ents es) rows columns) (d : Disk) (name : String)
    (hd : d.Works (6 * 4 + es.length * (3 * 4 + cv.size)) name) :
    ∃ A es', cooToCsbr (2 ^ 32) workers es rows columns offR blockrows offC blockcols = .ok (A, es') ∧
      (∀ fs, ∃ fs', writeBinBlocked 4 cv d fs name rows columns blockrows blockcols A.nnzblocks es' = (0, fs') ∧
        fs' name = some (blockFile 4 cv rows columns blockrows blockcols A.nnzblocks (es'.map recOf)) ∧
        readBlockedCsbr 4 cv fs' name offR blockrows offC blockcols = .ok (some (0, some { A with partition := [] }))) ∧
      (∀ x y, Csbr.spmv (2 ^ 32) { A with partition := [] } x y = A.spmv (2 ^ 32) x y) ∧
      (∀ fs : FS, ∀ k, k < (blockFile 4 cv rows columns blockrows blockcols A.nnzblocks (es'.map recOf)).length →
        fs name = some ((blockFile 4 cv rows columns blockrows blockcols A.nnzblocks (es'.map recOf)).take k) →
        readBlockedCsbr 4 cv fs name offR blockrows offC blockcols =
          if k < 6 * 4 then .error .assertion else .ok (some (-4, none))) := by
  obtain ⟨P, hP⟩ := csbr_main (M := 256 ^ 4) (workers := workers) hw PR PC hne hlen hgrid hrows hcols hbr hbc hin
  have H := prepared_blkIn (M := 256 ^ 4) PR PC hne hlen hgrid hrows hcols hbr (by omega) hin
  have hplen : (prepared offR blockrows offC blockcols es).length = es.length := prepared_length
  refine ⟨_, _, hP, ?_⟩
  have hA : csbrBuild (256 ^ 4) workers (prepared offR blockrows offC blockcols es) rows columns offR blockrows offC blockcols = .ok
      { csbrOf (offF offR) (offF offC) offR offC rows columns blockrows blockcols
            (prepared offR blockrows offC blockcols es) with partition := P } := by
    unfold cooToCsbr at hP
    rw [calculateBlockId_spec PR PC (by omega) (by omega) (by omega) hin, ok_bind] at hP
    obtain ⟨A, h1, h2⟩ := bind_ok hP
    cases h2
    exact h1
  have hnb : (csbrOf (offF offR) (offF offC) offR offC rows columns blockrows blockcols
            (prepared offR blockrows offC blockcols es)).nnzblocks ≤ es.length := by
    rw [← hplen]
    exact runs_length_le _ _
  obtain ⟨c1, c2⟩ := readBlockedCsbr_sim (cv := cv) (w := 4) (by decide) hv uintMax32 (fun e he => by
      have h1 := H.sent e he
      have h2 := hin _ (mem_prepared he).2
      simp only at h2
      exact ⟨by omega, by show e.row < _; omega, by show e.col < _; omega⟩) H.sortedB
    (show rows < 2 ^ 32 by omega) hcols (by rw [hplen]; exact hlen) (show blockrows < 2 ^ 32 by omega)
    (show blockcols < 2 ^ 32 by omega) { csbrOf (offF offR) (offF offC) offR offC rows columns blockrows blockcols
            (prepared offR blockrows offC blockcols es) with partition := P } (Nat.lt_of_le_of_lt hnb hlen) hA name
  refine ⟨fun fs => ?_, fun x y => rfl, c2⟩
  have hwr := writeBinBlocked_eq (cv := cv) (w := 4) (by decide) hv d fs name rows columns blockrows blockcols
    (csbrOf (offF offR) (offF offC) offR offC rows columns blockrows blockcols (prepared offR blockrows offC blockcols es)).nnzblocks
    (prepared offR blockrows offC blockcols es) hd.opens
  have hk := hd.kept
  have hro := hd.room
  rw [List.take_of_length_le (by rw [blockFile_length (by decide) hv, hplen]; omega)] at hwr
  exact ⟨_, hwr, FS.set_same _ _ _, c1 _ (FS.set_same _ _ _)⟩

/-- **C40.** `Csbr2`, 32-bit indices: the same, and here every member is equal. -/
theorem C40_csbr2 (hv : cv.Exact (fun _ => True)) (rows columns : Nat) (es : List (Element T))
    (offR : List Nat) (blockrows : Nat) (offC : List Nat) (blockcols : Nat)
    (PR : Partition offR blockrows rows) (PC : Partition offC blockcols columns)
    (hne : es ≠ []) (hlen : es.length < 2 ^ 32) (hgrid : blockrows * blockcols < 2 ^ 32)
    (hrows : rows + 1 < 2 ^ 32) (hcols : columns < 2 ^ 32) (hbr : blockrows ≤ rows) (hbc : blockcols ≤ columns)
    (hin : InRange (ents es) rows columns) (d : Disk) (name : String)
    (hd : d.Works (6 * 4 + es.length * (3 * 4 + cv.size)) name) :
    ∃ A es', cooToCsbr2 (2 ^ 32) es rows columns offR blockrows offC blockcols = .ok (A, es') ∧
      (∀ fs, ∃ fs', writeBinBlocked 4 cv d fs name rows columns blockrows blockcols A.nnzblocks es' = (0, fs') ∧
        fs' name = some (blockFile 4 cv rows columns blockrows blockcols A.nnzblocks (es'.map recOf)) ∧
        readBlockedCsbr2 4 cv fs' name offR blockrows offC blockcols = .ok (some (0, some A))) ∧
      (∀ fs : FS, ∀ k, k < (blockFile 4 cv rows columns blockrows blockcols A.nnzblocks (es'.map recOf)).length →
        fs name = some ((blockFile 4 cv rows columns blockrows blockcols A.nnzblocks (es'.map recOf)).take k) →
        readBlockedCsbr2 4 cv fs name offR blockrows offC blockcols =
          if k < 6 * 4 then .error .assertion else .ok (some (-4, none))) := by
  have hP := csbr2_main (M := 256 ^ 4) PR PC hne hlen hgrid hrows hcols hbr hbc hin
  have H := prepared_blkIn (M := 256 ^ 4) PR PC hne hlen hgrid hrows hcols hbr (by omega) hin
  have hplen : (prepared offR blockrows offC blockcols es).length = es.length := prepared_length
  refine ⟨_, _, hP, ?_⟩
  have hA : csbr2Build (256 ^ 4) (prepared offR blockrows offC blockcols es) rows columns offR blockrows offC blockcols = .ok
      (csbr2Of (offF offR) offR offC rows columns blockrows blockcols (prepared offR blockrows offC blockcols es)) := by
    unfold cooToCsbr2 at hP
    rw [calculateBlockId_spec PR PC (by omega) (by omega) (by omega) hin, ok_bind] at hP
    obtain ⟨A, h1, h2⟩ := bind_ok hP
    cases h2
    exact h1
  have hnb : (csbr2Of (offF offR) offR offC rows columns blockrows blockcols
            (prepared offR blockrows offC blockcols es)).nnzblocks ≤ es.length := by
    rw [← hplen]
    exact runs_length_le _ _
  obtain ⟨c1, c2⟩ := readBlockedCsbr2_sim (cv := cv) (w := 4) (by decide) hv uintMax32 (fun e he => by
      have h1 := H.sent e he
      have h2 := hin _ (mem_prepared he).2
      simp only at h2
      exact ⟨by omega, by show e.row < _; omega, by show e.col < _; omega⟩) H.sortedB
    (show rows < 2 ^ 32 by omega) hcols (by rw [hplen]; exact hlen) (show blockrows < 2 ^ 32 by omega)
    (show blockcols < 2 ^ 32 by omega) _ (Nat.lt_of_le_of_lt hnb hlen) hA name
  refine ⟨fun fs => ?_, c2⟩
  have hwr := writeBinBlocked_eq (cv := cv) (w := 4) (by decide) hv d fs name rows columns blockrows blockcols
    (csbr2Of (offF offR) offR offC rows columns blockrows blockcols (prepared offR blockrows offC blockcols es)).nnzblocks
    (prepared offR blockrows offC blockcols es) hd.opens
  have hk := hd.kept
  have hro := hd.room
  rw [List.take_of_length_le (by rw [blockFile_length (by decide) hv, hplen]; omega)] at hwr
  exact ⟨_, hwr, FS.set_same _ _ _, c1 _ (FS.set_same _ _ _)⟩

/-- The hypotheses of C40 are met: the partition and entries of the example after C08, on any disk with
room for 96 bytes of records and header with 4-byte values. -/
example : (⟨fun _ => true, 100, 100⟩ : Disk).Works (6 * 4 + 4 * (3 * 4 + (idx 4).size)) "a.block" ∧
    (blockFile 4 (idx 4) 5 4 2 2 3 [(0, ⟨0, 0, 2⟩), (1, ⟨1, 3, 7⟩), (3, ⟨4, 3, 5⟩), (3, ⟨4, 3, 1⟩)]).length = 88 :=
  ⟨⟨rfl, by decide, by decide⟩, by decide⟩

/-- **C40**, the header is checked: if the file was written for another grid, or for other numbers of rows or columns than
the given partitions cover, all the blocked readers stop at an assertion. -/
theorem C40_header_checked [Add T] [Mul T] [Zero T] {w : Nat} (hw : 0 < w) (cv : Codec T) (S workers : Nat)
    (choose : Nat → Nat → Nat → BlockChoice) (balanced : Bool) (fs : FS) (name : String)
    (rows columns br bc n : Nat) (es : List (Nat × Ent T)) (offR offC : List Nat) (blockrows blockcols rows' columns' : Nat)
    (PR : Partition offR blockrows rows') (PC : Partition offC blockcols columns')
    (hf : fs name = some (blockFile w cv rows columns br bc n es))
    (hr : rows < 256 ^ w) (hc : columns < 256 ^ w) (hz : es.length < 256 ^ w) (hbr : br < 256 ^ w) (hbc : bc < 256 ^ w)
    (hn : n < 256 ^ w)
    (hne : br ≠ blockrows ∨ bc ≠ blockcols ∨ rows ≠ rows' ∨ columns ≠ columns') :
    readBlockedCsbr w cv fs name offR blockrows offC blockcols = .error .assertion ∧
    readBlockedCsbr2 w cv fs name offR blockrows offC blockcols = .error .assertion ∧
    readBlockedCgbr w S workers cv choose balanced fs name offR blockrows offC blockcols = .error .assertion := by
  have key : readBlockedCommon w fs name offR blockrows offC blockcols = .error .assertion := by
    have hh := readWords_ok hw [rows, columns, es.length, br, bc, n] (by
      intro a ha
      simp only [List.mem_cons, List.not_mem_nil, or_false] at ha
      rcases ha with rfl | rfl | rfl | rfl | rfl | rfl <;> assumption)
      ⟨blockFile w cv rows columns br bc n es, 0⟩ _ (by simp only [In.rest]; unfold blockFile; rfl)
    simp only [List.length_cons, List.length_nil, List.map_cons, List.map_nil, Nat.zero_add] at hh
    unfold readBlockedCommon
    rw [hf]
    simp only
    rw [hh]
    simp only
    by_cases h1 : br = blockrows
    · by_cases h2 : bc = blockcols
      · subst h1 h2
        simp only [BEq.rfl, cassert_true, ok_bind]
        rw [PR.rd_ok br (Nat.le_refl _), PR.at_last, ok_bind]
        by_cases h3 : rows = rows'
        · subst h3
          simp only [BEq.rfl, cassert_true, ok_bind]
          rw [PC.rd_ok bc (Nat.le_refl _), PC.at_last, ok_bind]
          have h4 : columns ≠ columns' := by tauto
          have : (columns' == columns) = false := by simpa using fun h => h4 h.symm
          rw [this]; rfl
        · have : (rows' == rows) = false := by simpa using fun h => h3 h.symm
          rw [this]; rfl
      · have : (bc == blockcols) = false := by simpa using h2
        subst h1
        simp only [BEq.rfl, cassert_true, ok_bind]
        rw [this]; rfl
    · have : (br == blockrows) = false := by simpa using h1
      rw [this]; rfl
  refine ⟨?_, ?_, ?_⟩
  · unfold readBlockedCsbr; rw [key]; rfl
  · unfold readBlockedCsbr2; rw [key]; rfl
  · unfold readBlockedCgbr; rw [key]; rfl

/-- Hypotheses met: a file of a 5 × 4 matrix read with partitions of a 5 × 3 one. -/
example : Partition [0, 2, 5] 2 5 ∧ Partition [0, 1, 3] 2 3 ∧
    (blockFile 4 (idx 4) 5 4 2 2 1 [(3, ⟨4, 3, 5⟩)]).length = 40 ∧ (4 : Nat) ≠ 3 :=
  ⟨⟨rfl, rfl, rfl, by decide⟩, ⟨rfl, rfl, rfl, by decide⟩, by decide, by decide⟩

/-! ### 64-bit indices -/

/-- The first record of a file read with 64-bit indices. -/
theorem first64 (hv : cv.Exact (fun _ => True)) {σ : Type} (nb' : Nat → Nat → Nat → σ → C σ)
    (el' : Element T → Nat → Nat → σ → C σ) (e : Element T) (he : Fits (256 ^ 8) e) (hb : e.block ≠ 2 ^ 32 - 1)
    (n : Nat) (hn : 0 < n) (f : In) (t : Bytes) (st : σ) (err : Err) (hf : f.rest = recB 8 cv e ++ t)
    (h : nb' 0 (2 ^ 32) e.block st = .error err) :
    blockedLoop 8 cv nb' el' n f st = .error err := by
  unfold blockedLoop
  have hu : uintMax (256 ^ 8) = 2 ^ 32 - 1 := by decide
  rw [hu, forLoop_step hn]
  simp only [ne_eq, not_true_eq_false, if_false]
  rw [readRec_ok (by decide) hv f _ e he t hf]
  simp only [not_true_eq_false, if_false]
  unfold blockedStep
  simp only [ne_eq, hb, not_false_eq_true, if_true]
  have ha : addM (256 ^ 8) (2 ^ 32 - 1) 1 = 2 ^ 32 := by decide
  rw [cassert_ok (by rw [hu]; simp), ok_bind]
  simp only [ha]
  rw [h]
  rfl

/-- **C55.** With 64-bit indices the sentinel `UINT_MAX` does not wrap to 0 when incremented, so both
readers write outside their arrays on the first record of every file with at most 2^32 blocks. -/
theorem C55_csbr_out_of_bounds (hv : cv.Exact (fun _ => True)) (fs : FS) (name : String)
    (rows columns blockrows blockcols n : Nat) (e : Element T) (es : List (Element T)) (offR offC : List Nat)
    (PR : Partition offR blockrows rows) (PC : Partition offC blockcols columns)
    (hr : rows < 2 ^ 64) (hc : columns < 2 ^ 64) (hz : (e :: es).length < 2 ^ 64) (hbr : blockrows + 1 < 2 ^ 64)
    (hbc : blockcols < 2 ^ 64) (hn : n ≤ 2 ^ 32)
    (he : e.row < 2 ^ 64 ∧ e.col < 2 ^ 64) (hblk : e.block < blockrows * blockcols) (hb : e.block ≠ 2 ^ 32 - 1)
    (hb64 : e.block < 2 ^ 64)
    (hf : fs name = some (blockFile 8 cv rows columns blockrows blockcols n ((e :: es).map recOf))) :
    readBlockedCsbr 8 cv fs name offR blockrows offC blockcols = .error .oob ∧
    readBlockedCsbr2 8 cv fs name offR blockrows offC blockcols = .error .oob := by
  have hbc0 : 0 < blockcols := by
    rcases Nat.eq_zero_or_pos blockcols with h | h
    · subst h; simp at hblk
    · exact h
  have hdiv : e.block / blockcols < blockrows := (Nat.div_lt_iff_lt_mul hbc0).2 hblk
  have hmod := Nat.mod_lt e.block hbc0
  have hl6 : (packed (idx 8) [rows, columns, (e :: es).length, blockrows, blockcols, n]).length = 6 * 8 := by
    rw [packed_length (idx_exact (by decide))]; rfl
  rw [blockFile_eq] at hf
  have hco := readBlockedCommon_ok (w := 8) (by decide) fs name rows columns blockrows blockcols n (e :: es).length offR offC _ hf hr hc hz
    (show _ < 2 ^ 64 by omega) hbc (show n < 2 ^ 64 by omega) (by rw [PR.rd_ok blockrows (Nat.le_refl _), PR.at_last])
    (by rw [PC.rd_ok blockcols (Nat.le_refl _), PC.at_last])
  have hcoord : blockCoordsIo (256 ^ 8) offR offC blockcols e.block = .ok (e.block / blockcols, e.block % blockcols,
      ⟨offF offR (e.block / blockcols), offF offC (e.block % blockcols),
        subM (256 ^ 8) (offF offR (e.block / blockcols + 1)) (offF offR (e.block / blockcols)), 0⟩) := by
    unfold blockCoordsIo
    rw [cdiv_ok hbc0, ok_bind, cmod_ok hbc0, ok_bind, PR.rd_ok _ (by omega), ok_bind, PC.rd_ok _ (by omega), ok_bind,
      addM_eq (show _ < 256 ^ 8 by omega), PR.rd_ok _ (by omega), ok_bind]
  have hinc : ∀ b : Buf Nat, b = Buf.filled (addM (256 ^ 8) blockrows 1) 0 →
      ∃ b', incr (256 ^ 8) b (addM (256 ^ 8) (e.block / blockcols) 1) = .ok b' := by
    rintro b rfl
    rw [addM_eq (show blockrows + 1 < 256 ^ 8 by omega), addM_eq (show _ < 256 ^ 8 by omega)]
    unfold incr
    rw [Buf.get_filled (by omega), ok_bind]
    unfold Buf.put
    rw [if_pos (by show _ < blockrows + 1; omega)]
    exact ⟨_, rfl⟩
  constructor
  · unfold readBlockedCsbr
    rw [hco, ok_bind]
    simp only
    rw [first64 (cv := cv) hv _ _ e ⟨hb64, he.1, he.2⟩ hb (e :: es).length (Nat.succ_pos _) _ (es.flatMap (recB 8 cv)) _ .oob
      (by simp only [In.rest]; rw [List.drop_left' hl6, List.flatMap_cons])]
    · rfl
    · unfold csbrNewBlockIo
      rw [hcoord, ok_bind]
      obtain ⟨b', hb'⟩ := hinc _ rfl
      simp only
      rw [hb', ok_bind]
      unfold Buf.put Buf.uninit
      rw [if_neg (by show ¬ (2 ^ 32 < n); omega)]
      rfl
  · unfold readBlockedCsbr2
    rw [hco, ok_bind]
    simp only
    rw [first64 (cv := cv) hv _ _ e ⟨hb64, he.1, he.2⟩ hb (e :: es).length (Nat.succ_pos _) _ (es.flatMap (recB 8 cv)) _ .oob
      (by simp only [In.rest]; rw [List.drop_left' hl6, List.flatMap_cons])]
    · rfl
    · unfold csbr2NewBlockIo
      rw [hcoord, ok_bind]
      obtain ⟨b', hb'⟩ := hinc _ rfl
      simp only
      rw [hb', ok_bind]
      unfold Buf.put Buf.uninit
      rw [if_neg (by show ¬ (2 ^ 32 < n); omega)]
      rfl

/-- The hypotheses of C55 are met by the grid of the example after C08 and its first record. -/
example : Partition [0, 2, 5] 2 5 ∧ Partition [0, 1, 4] 2 4 ∧
    (⟨4, 3, 5, 3⟩ : Element Nat).block < 2 * 2 ∧ (⟨4, 3, 5, 3⟩ : Element Nat).block ≠ 2 ^ 32 - 1 ∧
    (blockFile 8 (idx 8) 5 4 2 2 1 ([(⟨4, 3, 5, 3⟩ : Element Nat)].map recOf)).length = 80 :=
  ⟨⟨rfl, rfl, rfl, by decide⟩, ⟨rfl, rfl, rfl, by decide⟩, by decide, by decide, by decide⟩

end Gsb
