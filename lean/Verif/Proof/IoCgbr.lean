import Verif.Proof.IoBlocked
import Verif.Proof.CgbrTop
/-
The reader of blocked files into `Cgbr`.
-/
namespace Gsb
variable {T : Type} {w : Nat} {cv : Codec T}

/-! ### Positions -/

/-- The stream before record `j`; the records start at `hp` and have `rs` bytes. -/
def recAt (data : Bytes) (hp rs j : Nat) : In := ⟨data, hp + j * rs⟩

theorem recAt_back (data : Bytes) (hp rs a n : Nat) : (recAt data hp rs (a + n)).back (n * rs) = recAt data hp rs a := by
  unfold recAt In.back
  simp only [Nat.add_mul]
  rw [if_pos (by omega)]
  congr 1; omega

theorem recAt_forward (data : Bytes) (hp rs a : Nat) : (recAt data hp rs a).forward rs = recAt data hp rs (a + 1) := by
  unfold recAt In.forward
  simp only [Nat.add_mul, Nat.one_mul, Nat.add_assoc]

/-- The data section of a complete file. -/
structure DataAt (w : Nat) (cv : Codec T) (data : Bytes) (hp : Nat) (es : List (Element T)) : Prop where
  rest : data.drop hp = es.flatMap (recB w cv)

theorem DataAt.at {data : Bytes} {hp : Nat} {es : List (Element T)} (D : DataAt w cv data hp es)
    (hv : cv.Exact (fun _ => True)) (P R : List (Element T)) (h : es = P ++ R) :
    (recAt data hp (3 * w + cv.size) P.length).rest = R.flatMap (recB w cv) := by
  show data.drop (hp + _) = _
  rw [← List.drop_drop, D.rest, h, List.flatMap_append, List.drop_left' (recs_length hv P)]

theorem readRec_eof (hw : 0 < w) (hv : cv.Exact (fun _ => True)) (f : In) (v : RecVars T) (h : f.rest = []) :
    readRec w cv f v = (0, v, f) := by
  have hpos := hv.pos
  have key : ∀ {α : Type} (c : Codec α) (u : Option α), 0 < c.size → fread1 c f u = (0, u, f) := by
    intro α c u hc
    rw [fread1_short (by rw [h]; exact hc), h]
    simp
  unfold readRec
  simp only
  rw [key (idx w) v.b hw]
  simp only
  rw [key (idx w) v.row hw]
  simp only
  rw [key (idx w) v.col hw]
  simp only
  simp only [key cv v.val hpos, Nat.add_zero]

theorem readBlockElems_ok (hw : 0 < w) (hv : cv.Exact (fun _ => True)) (c : Cur) (b : Nat) (g : List (Element T)) (f : In)
    (t : Bytes) (hf : f.rest = g.flatMap (recB w cv) ++ t)
    (hg : ∀ e ∈ g, Fits (256 ^ w) e ∧ e.block = b ∧ assertInBlock (256 ^ w) c e.row e.col = .ok () ∧
      subM (256 ^ w) e.row c.brOff = e.row - c.brOff ∧ subM (256 ^ w) e.col c.bcOff = e.col - c.bcOff) :
    readBlockElems w cv c b g.length f =
      .ok (g.map (locElem c.brOff c.bcOff), ⟨f.data, f.pos + g.length * (3 * w + cv.size)⟩) := by
  unfold readBlockElems
  refine forLoop_closed' (fun j => ((g.take j).map (locElem c.brOff c.bcOff), ⟨f.data, f.pos + j * (3 * w + cv.size)⟩))
    (Nat.zero_le _) (by simp) (by simp) ?_
  intro j _ hj
  obtain ⟨h1, h2, h3, h4, h5⟩ := hg g[j] (List.getElem_mem hj)
  have hr := readRec_ok hw hv ⟨f.data, f.pos + j * (3 * w + cv.size)⟩ ⟨none, none, none, none⟩ g[j] h1
    ((g.drop (j + 1)).flatMap (recB w cv) ++ t) (by
      rw [In.rest_forward, hf]
      conv_lhs => rw [← List.take_append_drop j g, List.drop_eq_getElem_cons hj]
      rw [List.flatMap_append, List.append_assoc, List.drop_left' (by rw [recs_length hv]; simp; left; omega),
        List.flatMap_cons, List.append_assoc])
  simp only
  rw [hr]
  simp only
  rw [cassert_ok (by simp [h2]), ok_bind, h3, ok_bind, h4, h5]
  congr 1
  rw [List.take_succ_eq_append_getElem hj, List.map_append, Nat.add_mul j 1, Nat.one_mul, Nat.add_assoc]
  rfl

/-! ### What the reader puts in each block -/

section
variable {fR fC : Nat → Nat} {bc blockrows : Nat} {es : List (Element T)}

/-- Local elements given to block `k`: all of its run, but not the file's first record. -/
def readLoc (fR fC : Nat → Nat) (bc : Nat) (es : List (Element T)) (k : Nat) : List (Element T) :=
  if k = 0 then (runLoc fR fC bc es 0).tail else runLoc fR fC bc es k

/-- First record of block `k` as the reader sees it. -/
def readStart (es : List (Element T)) (k : Nat) : Nat := if k = 0 then 1 else runStart Element.block es k

theorem runStart_pos {k : Nat} (hk : k < (runs Element.block es).length) (h0 : k ≠ 0) :
    0 < runStart Element.block es k := by
  obtain ⟨j, rfl⟩ : ∃ j, k = j + 1 := ⟨k - 1, by omega⟩
  rw [runStart_succ _ _ _ (by omega)]
  have := List.length_pos_iff.2 (run_mem Element.block es j (by omega)).2.1
  omega

/-- The file's records cut at block `k`. -/
theorem read_slice {k : Nat} (hk : k < (runs Element.block es).length) :
    ∃ P g R, es = P ++ (g ++ R) ∧ P.length = readStart es k ∧ P.length + g.length = runStart Element.block es (k + 1) ∧
      (∀ e ∈ g, e ∈ es ∧ e.block = runKey Element.block (runs Element.block es)[k]) ∧
      g.map (fun e => locElem (fR (e.block / bc)) (fC (e.block % bc)) e) = readLoc fR fC bc es k := by
  have hm := run_mem Element.block es k hk
  have hflat : es = ((runs Element.block es).take k).flatten ++ ((runs Element.block es)[k] ++
      ((runs Element.block es).drop (k + 1)).flatten) := by
    conv_lhs => rw [← (runsOK Element.block es).flat, ← List.take_append_drop k (runs Element.block es),
      List.drop_eq_getElem_cons hk, List.flatten_append, List.flatten_cons]
  have hst := runStart_succ Element.block es k hk
  have hlen : (((runs Element.block es).take k).flatten).length = runStart Element.block es k := by
    rw [List.length_flatten]; rfl
  by_cases h0 : k = 0
  · subst h0
    cases hg : (runs Element.block es)[0] with
    | nil => exact absurd hg hm.2.1
    | cons e t =>
      refine ⟨[e], t, ((runs Element.block es).drop 1).flatten, ?_, rfl, ?_, ?_, ?_⟩
      · conv_lhs => rw [hflat, hg]
        simp
      · rw [hst, hg]; simp [runStart]; omega
      · intro a ha
        rw [← hg]
        exact hm.1 a (by rw [hg]; exact List.mem_cons_of_mem _ ha)
      · simp only [readLoc, if_true]
        rw [runLoc_eq hk, hg]; rfl
  · refine ⟨_, _, _, hflat, ?_, ?_, hm.1, ?_⟩
    · rw [hlen, readStart, if_neg h0]
    · rw [hlen, hst]
    · rw [readLoc, if_neg h0, runLoc_eq hk]

theorem readLoc_length {k : Nat} (hk : k < (runs Element.block es).length) :
    (readLoc fR fC bc es k).length = runStart Element.block es (k + 1) - readStart es k := by
  obtain ⟨P, g, R, -, h2, h3, -, h5⟩ := read_slice (fR := fR) (fC := fC) (bc := bc) hk
  rw [← h5, List.length_map]; omega

theorem sum_readLoc_le (k : Nat) (hk : k ≤ (runs Element.block es).length) :
    ((List.range k).map (fun j => (readLoc fR fC bc es j).length)).sum ≤ runStart Element.block es k := by
  induction k with
  | zero => simp
  | succ k ih =>
    have h1 := ih (by omega)
    have h2 := readLoc_length (fR := fR) (fC := fC) (bc := bc) (es := es) (show k < _ by omega)
    have h3 := runStart_succ Element.block es k (by omega)
    rw [List.range_succ, List.map_append, List.sum_append]
    simp only [List.map_cons, List.map_nil, List.sum_singleton]
    have h4 : runStart Element.block es k ≤ readStart es k := by
      unfold readStart
      split
      · next h => subst h; simp [runStart]
      · exact Nat.le_refl _
    omega

/-! ### The loop -/

variable [Zero T]

/-- The reader's variables when `k` blocks are done: the stream is one record into block `k`. -/
def readState (fR fC : Nat → Nat) (bc blockrows : Nat) (es : List (Element T)) (res : Results (MatrixBlock T) T)
    (data : Bytes) (hp rs : Nat) (k : Nat) (v : RecVars T) (pb : Option Nat) : CgbrRead T where
  f := recAt data hp rs (runStart Element.block es k + 1)
  vars := v
  prevB := pb
  blockStart := if k = 0 then 0 else runStart Element.block es k - 1
  blockIndex := k
  blockrowPtr := Buf.full (blockrows + 1) (fun i => ((runKeys Element.block es).take k).countP (fun κ => κ / bc + 1 == i))
  blockcolInd := ⟨(runs Element.block es).length, fun j => (((runKeys Element.block es).take k)[j]?).map (· % bc)⟩
  blocks := ⟨(runs Element.block es).length, fun j => ((List.range k)[j]?).map (fun j => (res j).2.1)⟩
  typeBlocks := Buf.full 6 (cntType res k)
  typeNnz := Buf.full 6 (nnzType res (fun j => (readLoc fR fC bc es j).length) k)

variable {res : Results (MatrixBlock T) T} {S : Nat} {choose : Nat → Nat → Nat → BlockChoice} {offR offC : List Nat}
  {data : Bytes} {hp : Nat}

theorem cgbrFlush_spec (hw : 0 < w) (hv : cv.Exact (fun _ => True)) (D : DataAt w cv data hp es)
    (hfits : ∀ e ∈ es, Fits (256 ^ w) e) (H : BlkIn (256 ^ w) fR fC blockrows bc es)
    (hR : ∀ i, i ≤ blockrows → rd offR i = .ok (fR i)) (hC : ∀ i, i ≤ bc → rd offC i = .ok (fC i))
    (hmake : ∀ k, k < (runs Element.block es).length →
      cooToMatrixBlock (256 ^ w) S choose (blkRows fR bc es k) (blkCols fC bc es k) (readLoc fR fC bc es k) = .ok (res k))
    (hty : ∀ k, k < (runs Element.block es).length → (res k).1 < 6)
    {k : Nat} (hk : k < (runs Element.block es).length) (i fr b : Nat) (hi : i + 1 = runStart Element.block es (k + 1))
    (V v : RecVars T) (pb : Option Nat) (F : In)
    (hF : F = if fr = 4 then recAt data hp (3 * w + cv.size) (i + 2) else recAt data hp (3 * w + cv.size) (i + 1)) :
    cgbrFlush w S cv choose offR offC bc i fr b (runKey Element.block (runs Element.block es)[k])
        { readState fR fC bc blockrows es res data hp (3 * w + cv.size) k v pb with f := F, vars := V } =
      .ok (readState fR fC bc blockrows es res data hp (3 * w + cv.size) (k + 1) V (some b)) := by
  have hlenE := H.len
  have hbrM := H.brM
  obtain ⟨P, g, R, hes, hPl, hPg, hgm, hgl⟩ := read_slice (fR := fR) (fC := fC) (bc := bc) hk
  have hm := run_mem Element.block es k hk
  obtain ⟨b0, hb0⟩ : ∃ b0, b0 = runKey Element.block (runs Element.block es)[k] := ⟨_, rfl⟩
  have hkl : k < (runKeys Element.block es).length := by simpa using hk
  have hbk : (runKeys Element.block es)[k] = b0 := by rw [runKeys_getElem _ _ _ hk, hb0]
  rw [← hb0] at hgm ⊢
  obtain ⟨e0, he0, he0b⟩ : ∃ e0, e0 ∈ es ∧ e0.block = b0 := by
    obtain ⟨a, ha⟩ := List.exists_mem_of_ne_nil _ hm.2.1
    exact ⟨a, (hm.1 a ha).1, by rw [hb0]; exact (hm.1 a ha).2⟩
  have hcoord := blockCoords_ok H hR hC he0
  have hrow := H.row e0 he0
  have hmaxR := H.maxR e0 he0
  rw [he0b] at hcoord hrow
  have hstart := runStart_succ Element.block es k hk
  have hrl := runs_length_le Element.block es
  have hsle := runStart_le es (k + 1) hk
  have hrunpos := List.length_pos_iff.2 hm.2.1
  unfold cgbrFlush
  rw [hcoord, ok_bind]
  simp only [readState]
  have hinc := incr_count (M := 256 ^ w) ((runKeys Element.block es).take k) (fun κ => κ / bc) b0 (len := blockrows + 1)
    (by omega) (by simp; omega)
  have htk : (runKeys Element.block es).take k ++ [b0] = (runKeys Element.block es).take (k + 1) := by
    rw [take_succ_eq hkl, hbk]
  rw [addM_eq (show b0 / bc + 1 < 256 ^ w by omega), hinc, ok_bind, htk,
    fill_put ((runKeys Element.block es).take k) (· % bc) b0 (by simp; omega) hk, ok_bind, htk]
  -- number of elements and position
  have hbs : (if k = 0 then 0 else runStart Element.block es k - 1) + 1 = readStart es k := by
    unfold readStart
    by_cases h0 : k = 0
    · simp [h0]
    · simp only [if_neg h0]
      have := runStart_pos hk h0
      omega
  have hglen : g.length = i - (if k = 0 then 0 else runStart Element.block es k - 1) := by omega
  have hn : subM (256 ^ w) i (if k = 0 then 0 else runStart Element.block es k - 1) = g.length := by
    rw [subM_eq (by omega) (by omega), hglen]
  rw [hn]
  have hback : (if fr = 4 then F.back (addM (256 ^ w) g.length 1 * (3 * w + cv.size)) else F.back (g.length * (3 * w + cv.size))) =
      recAt data hp (3 * w + cv.size) P.length := by
    rw [addM_eq (by omega), hF]
    split
    · rw [show i + 2 = P.length + (g.length + 1) by omega, recAt_back]
    · rw [show i + 1 = P.length + g.length by omega, recAt_back]
  rw [hback]
  rw [readBlockElems_ok hw hv (curOf fR fC bc b0) b0 g (recAt data hp (3 * w + cv.size) P.length) (R.flatMap (recB w cv))
    (by rw [D.at hv P (g ++ R) hes, List.flatMap_append]) (by
      intro e he
      have h1 := hgm e he
      have h2 := H.inR e h1.1
      have h3 := H.inC e h1.1
      have h4 := H.maxR e h1.1
      have h5 := H.maxC e h1.1
      have h6 := assertInBlock_ok fR fC bc H h1.1
      rw [h1.2] at h2 h3 h4 h5 h6
      refine ⟨hfits e h1.1, h1.2, h6, ?_, ?_⟩
      · simp only [curOf]; exact subM_eq (by omega) h2.1
      · simp only [curOf]; exact subM_eq (by omega) h3.1), ok_bind]
  have hloc : g.map (locElem (curOf fR fC bc b0).brOff (curOf fR fC bc b0).bcOff) = readLoc fR fC bc es k := by
    rw [← hgl]
    refine List.map_congr_left (fun e he => ?_)
    rw [(hgm e he).2]; rfl
  have hsz1 : (curOf fR fC bc b0).brSize = blkRows fR bc es k := by
    unfold curOf blkRows; rw [List.getElem?_eq_getElem hkl, Option.getD_some, hbk]
  have hsz2 : (curOf fR fC bc b0).bcSize = blkCols fC bc es k := by
    unfold curOf blkCols; rw [List.getElem?_eq_getElem hkl, Option.getD_some, hbk]
  simp only
  rw [hloc, hsz1, hsz2, hmake k hk, ok_bind]
  have hput : (Buf.mk (runs Element.block es).length (fun j => ((List.range k)[j]?).map (fun j => (res j).2.1))).put k (res k).2.1 =
      .ok (Buf.mk (runs Element.block es).length (fun j => ((List.range (k + 1))[j]?).map (fun j => (res j).2.1))) := by
    rw [List.range_succ]
    exact fill_put (List.range k) (fun j => (res j).2.1) k (by simp) hk
  rw [hput, ok_bind]
  have hcl := cntType_le res k (res k).1
  rw [incr_full _ (hty k hk) (by omega), ok_bind, Buf.get_full (hty k hk), ok_bind, Buf.put_full (hty k hk), ok_bind]
  have hnl := nnzType_le res (fun j => (readLoc fR fC bc es j).length) k (res k).1
  have hsum := sum_readLoc_le (fR := fR) (fC := fC) (bc := bc) (es := es) k (by omega)
  have hgle : g.length ≤ ((runs Element.block es)[k]).length := by
    have : runStart Element.block es k ≤ readStart es k := by
      unfold readStart
      split
      · next h => subst h; simp [runStart]
      · exact Nat.le_refl _
    omega
  rw [addM_eq (by omega), addM_eq (by omega)]
  have hf1 : (fun i => if i = (res k).1 then cntType res k i + 1 else cntType res k i) = cntType res (k + 1) := by
    funext t; rw [cntType_succ]
  have hgl' : (readLoc fR fC bc es k).length = g.length := by rw [← hgl, List.length_map]
  have hf2 : (fun i => if i = (res k).1 then nnzType res (fun j => (readLoc fR fC bc es j).length) k (res k).1 + g.length
      else nnzType res (fun j => (readLoc fR fC bc es j).length) k i) =
      nnzType res (fun j => (readLoc fR fC bc es j).length) (k + 1) := by
    funext t; rw [nnzType_succ, hgl']
    by_cases h : t = (res k).1
    · subst h; simp
    · simp [h]
  rw [hf1, hf2]
  have hpos : (⟨(recAt data hp (3 * w + cv.size) P.length).data, (recAt data hp (3 * w + cv.size) P.length).pos +
      g.length * (3 * w + cv.size)⟩ : In).forward (3 * w + cv.size) =
      recAt data hp (3 * w + cv.size) (runStart Element.block es (k + 1) + 1) := by
    rw [← hPg, ← recAt_forward]
    congr 1
    unfold recAt
    simp only [Nat.add_mul, Nat.add_assoc]
  rw [hpos]
  simp only [Nat.add_one_ne_zero, if_false]
  have : i = runStart Element.block es (k + 1) - 1 := by omega
  rw [this]

/-- One run of iterations: block `k` is read and built. -/
theorem cgbrRead_run (hw : 0 < w) (hv : cv.Exact (fun _ => True)) (D : DataAt w cv data hp es)
    (hfits : ∀ e ∈ es, Fits (256 ^ w) e) (H : BlkIn (256 ^ w) fR fC blockrows bc es)
    (hR : ∀ i, i ≤ blockrows → rd offR i = .ok (fR i)) (hC : ∀ i, i ≤ bc → rd offC i = .ok (fC i))
    (hmake : ∀ k, k < (runs Element.block es).length →
      cooToMatrixBlock (256 ^ w) S choose (blkRows fR bc es k) (blkCols fC bc es k) (readLoc fR fC bc es k) = .ok (res k))
    (hty : ∀ k, k < (runs Element.block es).length → (res k).1 < 6) (htwo : 2 ≤ es.length)
    {k : Nat} (hk : k < (runs Element.block es).length) (v : RecVars T) (hvb : k ≠ 0 → ∃ b, v.b = some b) :
    ∃ V b, (∃ b, V.b = some b) ∧
      (∀ h : k + 1 < (runs Element.block es).length, b = runKey Element.block (runs Element.block es)[k + 1]) ∧
      forLoop (runStart Element.block es k) (runStart Element.block es (k + 1))
        (readState fR fC bc blockrows es res data hp (3 * w + cv.size) k v
          (some (runKey Element.block (runs Element.block es)[k])))
        (cgbrReadStep w S cv choose offR offC bc) =
      .ok (readState fR fC bc blockrows es res data hp (3 * w + cv.size) (k + 1) V (some b)) := by
  have hm := run_mem Element.block es k hk
  have hrunpos := List.length_pos_iff.2 hm.2.1
  have hstart := runStart_succ Element.block es k hk
  have hsle := runStart_le es (k + 1) hk
  obtain ⟨b0, hb0⟩ : ∃ b0, b0 = runKey Element.block (runs Element.block es)[k] := ⟨_, rfl⟩
  rw [← hb0]
  -- block of a record of run `k`
  have hblk : ∀ i (h : i < es.length), runStart Element.block es k ≤ i → i < runStart Element.block es (k + 1) → es[i].block = b0 := by
    intro i h h1 h2
    have := runs_getElem Element.block es k hk (i - runStart Element.block es k) (by omega)
    rw [show runStart Element.block es k + (i - runStart Element.block es k) = i by omega, List.getElem?_eq_getElem h] at this
    injection this with this
    rw [this, hb0]
    exact (hm.1 _ (List.getElem_mem _)).2
  -- quiet iterations
  let ofE : Element T → RecVars T := fun e => ⟨some e.block, some e.row, some e.col, some e.val⟩
  let VQ : Nat → RecVars T := fun i => if i = runStart Element.block es k then v else
    if h : i < es.length then ofE es[i] else v
  have hread : ∀ i (h : i + 1 < es.length) (u : RecVars T), readRec w cv (recAt data hp (3 * w + cv.size) (i + 1)) u =
      (4, ofE es[i + 1], recAt data hp (3 * w + cv.size) (i + 2)) := by
    intro i h u
    rw [readRec_ok hw hv _ u es[i + 1] (hfits _ (List.getElem_mem h)) ((es.drop (i + 2)).flatMap (recB w cv)) (by
      have := D.at hv (es.take (i + 1)) (es.drop (i + 1)) (List.take_append_drop _ _).symm
      rw [show (es.take (i + 1)).length = i + 1 by simp; omega] at this
      rw [this, List.drop_eq_getElem_cons h, List.flatMap_cons])]
    congr 2
    unfold recAt
    simp only [Nat.add_mul, Nat.one_mul, Nat.add_assoc]
    congr 1; omega
  have hquiet : forLoop (runStart Element.block es k) (runStart Element.block es (k + 1) - 1)
      (readState fR fC bc blockrows es res data hp (3 * w + cv.size) k v (some b0)) (cgbrReadStep w S cv choose offR offC bc) =
      .ok { readState fR fC bc blockrows es res data hp (3 * w + cv.size) k v (some b0) with
        f := recAt data hp (3 * w + cv.size) (runStart Element.block es (k + 1) - 1 + 1),
        vars := VQ (runStart Element.block es (k + 1) - 1) } := by
    refine forLoop_closed' (fun i => { readState fR fC bc blockrows es res data hp (3 * w + cv.size) k v (some b0) with
        f := recAt data hp (3 * w + cv.size) (i + 1), vars := VQ i }) (by omega) ?_ rfl ?_
    · simp only [VQ, if_true]; rfl
    · intro i h1 h2
      have hi1 : i + 1 < es.length := by omega
      unfold cgbrReadStep
      simp only
      rw [hread i hi1]
      simp only [readState, ofE]
      have hb1 := hblk (i + 1) hi1 (by omega) (by omega)
      rw [if_neg (by rw [hb1]; simp)]
      have : VQ (i + 1) = ofE es[i + 1] := by
        simp only [VQ]
        rw [if_neg (by omega), dif_pos hi1]
      rw [this]
  have hsplit := forLoop_split (f := cgbrReadStep w S cv choose offR offC bc)
    (s := readState fR fC bc blockrows es res data hp (3 * w + cv.size) k v (some b0))
    (show runStart Element.block es k ≤ runStart Element.block es (k + 1) - 1 by omega)
    (show runStart Element.block es (k + 1) - 1 ≤ runStart Element.block es (k + 1) by omega)
  rw [hquiet, ok_bind, forLoop_step (lo := runStart Element.block es (k + 1) - 1) (by omega)] at hsplit
  obtain ⟨i, hi⟩ : ∃ i, i + 1 = runStart Element.block es (k + 1) := ⟨_, Nat.sub_add_cancel (by omega)⟩
  rw [show runStart Element.block es (k + 1) - 1 = i by omega] at hsplit
  by_cases hk1 : k + 1 < (runs Element.block es).length
  · -- another block follows
    have hst2 := runStart_succ Element.block es (k + 1) hk1
    have hm2 := run_mem Element.block es (k + 1) hk1
    have hpos2 := List.length_pos_iff.2 hm2.2.1
    have hsle2 := runStart_le es (k + 1 + 1) hk1
    have hi1 : i + 1 < es.length := by omega
    have hb1 : es[i + 1].block = runKey Element.block (runs Element.block es)[k + 1] := by
      have := runs_getElem Element.block es (k + 1) hk1 0 hpos2
      rw [Nat.add_zero, ← hi, List.getElem?_eq_getElem hi1] at this
      injection this with this
      rw [this]
      exact (hm2.1 _ (List.getElem_mem _)).2
    have hne : es[i + 1].block ≠ b0 := by
      have h4 := List.pairwise_iff_getElem.1 (runKeys_strict H) k (k + 1) (by simpa using hk) (by simpa using hk1) (by omega)
      rw [runKeys_getElem _ _ _ hk, runKeys_getElem _ _ _ hk1, ← hb0, ← hb1] at h4
      omega
    refine ⟨ofE es[i + 1], es[i + 1].block, ⟨_, rfl⟩, fun _ => hb1, ?_⟩
    rw [hsplit]
    unfold cgbrReadStep
    simp only
    rw [hread i hi1]
    simp only [ofE, readState]
    rw [if_pos (Or.inl hne)]
    have := cgbrFlush_spec (offR := offR) (offC := offC) (blockrows := blockrows) hw hv D hfits H hR hC hmake hty hk i 4
      es[i + 1].block hi (ofE es[i + 1]) v (some b0) (recAt data hp (3 * w + cv.size) (i + 2)) (if_pos rfl).symm
    rw [← hb0] at this
    simp only [readState, ofE] at this
    rw [this, ok_bind, ← hi, forLoop_empty (Nat.le_refl _)]
  · -- end of file
    have hlast : k + 1 = (runs Element.block es).length := by omega
    have hnnz : i + 1 = es.length := by rw [hi, hlast, runStart_length]
    have heof : ∀ u : RecVars T, readRec w cv (recAt data hp (3 * w + cv.size) (i + 1)) u =
        (0, u, recAt data hp (3 * w + cv.size) (i + 1)) := by
      intro u
      refine readRec_eof hw hv _ u ?_
      have := D.at hv es [] (by simp)
      rw [← hnnz] at this
      simpa using this
    obtain ⟨b, hb⟩ : ∃ b, (VQ i).b = some b := by
      simp only [VQ]
      split
      · next h =>
        refine hvb ?_
        rintro rfl
        simp [runStart] at h
        omega
      · rw [dif_pos (by omega)]; exact ⟨_, rfl⟩
    refine ⟨VQ i, b, ⟨b, hb⟩, fun h => absurd h hk1, ?_⟩
    rw [hsplit]
    unfold cgbrReadStep
    simp only
    rw [heof]
    simp only [readState]
    rw [hb]
    simp only [or_true, if_true]
    have := cgbrFlush_spec (offR := offR) (offC := offC) (blockrows := blockrows) hw hv D hfits H hR hC hmake hty hk i 0
      b hi (VQ i) v (some b0) (recAt data hp (3 * w + cv.size) (i + 1)) (if_neg (by decide)).symm
    rw [← hb0] at this
    simp only [readState] at this
    rw [this, ok_bind, ← hi, forLoop_empty (Nat.le_refl _)]

theorem cgbrRead_loop (hw : 0 < w) (hv : cv.Exact (fun _ => True)) (D : DataAt w cv data hp es)
    (hfits : ∀ e ∈ es, Fits (256 ^ w) e) (H : BlkIn (256 ^ w) fR fC blockrows bc es)
    (hR : ∀ i, i ≤ blockrows → rd offR i = .ok (fR i)) (hC : ∀ i, i ≤ bc → rd offC i = .ok (fC i))
    (hmake : ∀ k, k < (runs Element.block es).length →
      cooToMatrixBlock (256 ^ w) S choose (blkRows fR bc es k) (blkCols fC bc es k) (readLoc fR fC bc es k) = .ok (res k))
    (hty : ∀ k, k < (runs Element.block es).length → (res k).1 < 6) (htwo : 2 ≤ es.length) (v : RecVars T)
    (h0 : 0 < (runs Element.block es).length) :
    ∃ V pb, forLoop 0 es.length
        (readState fR fC bc blockrows es res data hp (3 * w + cv.size) 0 v
          (some (runKey Element.block (runs Element.block es)[0]))) (cgbrReadStep w S cv choose offR offC bc) =
      .ok (readState fR fC bc blockrows es res data hp (3 * w + cv.size) (runs Element.block es).length V pb) := by
  have key : ∀ k, k ≤ (runs Element.block es).length → ∃ V pb, (k ≠ 0 → ∃ b, V.b = some b) ∧
      (∀ h : k < (runs Element.block es).length, pb = some (runKey Element.block (runs Element.block es)[k])) ∧
      forLoop 0 (runStart Element.block es k)
        (readState fR fC bc blockrows es res data hp (3 * w + cv.size) 0 v
          (some (runKey Element.block (runs Element.block es)[0]))) (cgbrReadStep w S cv choose offR offC bc) =
      .ok (readState fR fC bc blockrows es res data hp (3 * w + cv.size) k V pb) := by
    intro k
    induction k with
    | zero =>
      intro _
      exact ⟨v, _, fun h => absurd rfl h, fun _ => rfl, by rw [forLoop_empty (by simp [runStart])]⟩
    | succ k ih =>
      intro hk
      obtain ⟨V, pb, h1, h2, h3⟩ := ih (by omega)
      have h2' := h2 hk
      subst h2'
      obtain ⟨V', b, g1, g2, g3⟩ := cgbrRead_run (offR := offR) (offC := offC) (blockrows := blockrows) hw hv D hfits H hR hC
        hmake hty htwo (show k < _ from hk) V h1
      refine ⟨V', some b, fun _ => g1, fun h => by rw [g2 h], ?_⟩
      have hst := runStart_succ Element.block es k hk
      rw [forLoop_split (Nat.zero_le (runStart Element.block es k)) (by omega), h3, ok_bind, g3]
  obtain ⟨V, pb, -, -, h⟩ := key _ (Nat.le_refl _)
  rw [runStart_length] at h
  exact ⟨V, pb, h⟩

end
end Gsb
