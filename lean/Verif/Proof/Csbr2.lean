import Verif.Proof.CsbrTop
/-
CSBR2 and CSBR3.
-/
namespace Gsb
variable {T : Type}

theorem loopN_shift {σ : Type} (f : Nat → σ → C σ) (b n lo : Nat) (s : σ) :
    loopN f n (b + lo) s = loopN (fun j => f (b + j)) n lo s := by
  induction n generalizing lo s with
  | zero => rfl
  | succ n ih =>
    simp only [loopN]
    congr 1
    funext s'
    rw [← ih, Nat.add_assoc]

theorem forLoop_shift {σ : Type} (f : Nat → σ → C σ) (b lo hi : Nat) (s : σ) :
    forLoop (b + lo) (b + hi) s f = forLoop lo hi s (fun j => f (b + j)) := by
  unfold forLoop
  rw [show b + hi - (b + lo) = hi - lo by omega, loopN_shift]

/-- `spmv_csr_serial` on a row pointer array that already contains the base. -/
theorem spmvCsrSerial_based [Add T] [Mul T] {L : List (Ent T)} {base rows : Nat} {rp rp' ci : Buf Nat} {v : Buf T}
    (R : CsrRep L base rows rp ci v) (hlen : rows < rp'.len)
    (hdat : ∀ i, i ≤ rows → rp'.dat i = some (base + L.countP (fun e => decide (e.row < i))))
    {nx ny xo yo : Nat} (x y : Nat → T)
    (hx : ∀ e ∈ L, xo + e.col < nx) (hy : yo + rows ≤ ny) :
    spmvCsrSerial rp' ci v 0 rows (Buf.full nx x) xo (Buf.full ny y) yo =
      .ok (Buf.full ny (spmvInOrder (shift yo xo L) x y)) := by
  unfold spmvCsrSerial
  have h0 : L.countP (fun e => decide (e.row < 0)) = 0 := by simp
  rw [Buf.get_ok (by omega) (hdat 0 (by omega)), ok_bind, h0]
  rw [forLoop_closed' (fun i => (base + L.countP (fun e => decide (e.row < i)),
    Buf.full ny (visit x y (shift yo xo (L.take (L.countP (fun e => decide (e.row < i))))))))
    (Nat.zero_le _) (by simp [visit, shift]) rfl]
  · rw [ok_bind]
    simp only
    rw [countP_lt_all L (·.row) rows R.range, List.take_length, visit_eq]
  · intro i _ hi
    simp only
    rw [Buf.get_ok (by omega) (hdat (i+1) (by omega)), ok_bind, forLoop_shift]
    have hin : (fun j => csrInner ci v 0 (Buf.full nx x) xo (yo + i) (base + j)) =
        csrInner ci v base (Buf.full nx x) xo (yo + i) := by
      funext j y; simp [csrInner]
    rw [hin, csrInner_slice R x _ hx hy hi rfl rfl, ok_bind, ← visit_append, ← shift_append,
      take_drop_append L (countP_lt_mono L (·.row) (by omega))]

section csbr2
variable {M : Nat} {offR offC : List Nat} {blockrows blockcols rows columns : Nat} {es : List (Element T)}
  {fR fC : Nat → Nat}

/-- Row counters of one block. -/
def cntRow2 (fR : Nat → Nat) (bc : Nat) (κ _base : Nat) (g : List (Element T)) : Buf Nat :=
  Buf.full (fR (κ / bc + 1) - fR (κ / bc) + 1) (fun k => g.countP (fun e => e.row - fR (e.block / bc) + 1 == k))

/-- `row_ptr` of one block after accumulation. -/
def ptrRow2 (fR : Nat → Nat) (bc : Nat) (κ base : Nat) (g : List (Element T)) : Buf Nat :=
  Buf.full (fR (κ / bc + 1) - fR (κ / bc) + 1)
    (fun k => if k ≤ fR (κ / bc + 1) - fR (κ / bc) then
        base + g.countP (fun e => decide (e.row - fR (e.block / bc) < k))
      else g.countP (fun e => e.row - fR (e.block / bc) + 1 == k))

/-- The state of the copying loop after `i` elements. -/
def csbr2State (fR fC : Nat → Nat) (bc blockrows n : Nat) (es : List (Element T)) (i : Nat) : Csbr2Fill T :=
  ⟨(es.take i).getLast?.map (fun e => curOf fR fC bc e.block),
    Buf.full (blockrows + 1) (fun k => (runKeys Element.block (es.take i)).countP (fun κ => κ / bc + 1 == k)),
    blkBuf n Element.block (cntRow2 fR bc) (runs Element.block (es.take i)),
    ⟨es.length, fun k => ((es.take i)[k]?).map (fun e => e.col)⟩,
    ⟨es.length, fun k => ((es.take i)[k]?).map (fun e => e.val)⟩⟩

theorem csbr2Element_ok (H : BlkIn M fR fC blockrows blockcols es)
    {i bi base : Nat} {g : List (Element T)} {n : Nat} {s : Csbr2Fill T} {B'' : Buf (Buf Nat)}
    (hi : i < es.length) (hcur : s.cur = some (curOf fR fC blockcols es[i].block))
    (hg : g.length + 1 < M)
    (hget : s.rowPtr.get bi = .ok (cntRow2 fR blockcols es[i].block base g))
    (hput : s.rowPtr.put bi (cntRow2 fR blockcols es[i].block base (g ++ [es[i]])) = .ok B'')
    (hci : s.colInd = ⟨n, fun k => ((es.take i)[k]?).map (fun e => e.col)⟩)
    (hv : s.val = ⟨n, fun k => ((es.take i)[k]?).map (fun e => e.val)⟩) (hn : i < n) :
    csbr2Element M es i bi s = .ok { s with
      rowPtr := B''
      colInd := ⟨n, fun k => ((es.take (i + 1))[k]?).map (fun e => e.col)⟩
      val := ⟨n, fun k => ((es.take (i + 1))[k]?).map (fun e => e.val)⟩ } := by
  have he := List.getElem_mem hi
  have h1 := H.inR _ he
  have h3 := H.maxR _ he
  unfold csbr2Element
  rw [rd_ok hi, ok_bind, hcur]
  simp only [needCur, ok_bind]
  rw [assertInBlock_ok fR fC blockcols H he, ok_bind, hget, ok_bind]
  simp only [curOf]
  rw [subM_eq (by omega) h1.1, addM_eq (by omega)]
  have hinc := incr_count (M := M) g (fun e : Element T => e.row - fR (e.block / blockcols)) es[i]
    (len := fR (es[i].block / blockcols + 1) - fR (es[i].block / blockcols) + 1) (by omega) hg
  simp only [cntRow2] at hput hinc ⊢
  rw [hinc, ok_bind, hput, ok_bind, hci, hv]
  rw [fill_put (es.take i) (fun e : Element T => e.col) es[i] (by simp; omega) hn, ok_bind,
    fill_put (es.take i) (fun e : Element T => e.val) es[i] (by simp; omega) hn, ok_bind, take_succ_eq hi]

theorem csbr2Scan_ok (H : BlkIn M fR fC blockrows blockcols es)
    (hR : ∀ i, i ≤ blockrows → rd offR i = .ok (fR i)) (hC : ∀ i, i ≤ blockcols → rd offC i = .ok (fC i)) :
    ∃ r : Scan (Csbr2Fill T), forLoop 0 es.length (⟨M - 1, M - 1,
        csbr2State fR fC blockcols blockrows (runs Element.block es).length es 0⟩ : Scan (Csbr2Fill T))
      (scanStep M (elemBlock es) (csbr2NewBlock M offR offC blockcols) (csbr2Element M es)) = .ok r ∧
      r.st = csbr2State fR fC blockcols blockrows (runs Element.block es).length es es.length := by
  have hlen := H.len
  refine scan_spec es Element.block _ _ _ H.len H.sent (elemBlock_ok es)
    (csbr2State fR fC blockcols blockrows (runs Element.block es).length es) ?_ ?_
  · intro i hi hnew
    have he := List.getElem_mem hi
    have h1 := H.inR _ he
    have h3 := H.maxR _ he
    have h5 := H.row _ he
    have h6 := H.brM
    have hrn := runs_new Element.block _ _ hnew
    have hkn := runKeys_new Element.block _ _ hnew
    have hGn : (runs Element.block (es.take i)).length < (runs Element.block es).length := by
      have h := runs_take_le Element.block es (i + 1)
      rw [take_succ_eq hi, hrn] at h; simp at h; omega
    have hrl := runs_length_le Element.block (es.take i)
    have hil : (es.take i).length = i := by simp; omega
    obtain ⟨B', b1, b2, b3⟩ := blkBuf_new (n := (runs Element.block es).length) (key := Element.block)
      (F := cntRow2 fR blockcols) (a := es[i]) hGn
    have hinc := incr_count (M := M) (runKeys Element.block (es.take i)) (fun κ => κ / blockcols) es[i].block
      (len := blockrows + 1) (by omega) (by rw [runKeys_length]; omega)
    refine ⟨⟨some (curOf fR fC blockcols es[i].block),
      Buf.full (blockrows + 1) (fun k => (runKeys Element.block (es.take i) ++ [es[i].block]).countP (fun κ => κ / blockcols + 1 == k)),
      B', ⟨es.length, fun k => ((es.take i)[k]?).map (fun e => e.col)⟩,
      ⟨es.length, fun k => ((es.take i)[k]?).map (fun e => e.val)⟩⟩, ?_, ?_⟩
    · unfold csbr2NewBlock
      rw [blockCoords_ok H hR hC he, ok_bind]
      simp only [csbr2State, curOf]
      rw [addM_eq (by omega), addM_eq (by omega), hinc, ok_bind]
      have hF : (Buf.filled (fR (es[i].block / blockcols + 1) - fR (es[i].block / blockcols) + 1) 0 : Buf Nat) =
          cntRow2 fR blockcols es[i].block (runs Element.block (es.take i)).flatten.length ([] : List (Element T)) := by
        simp [cntRow2, Buf.filled, Buf.full]
      rw [hF, b1, ok_bind]
    · rw [csbr2Element_ok H (g := []) (n := es.length) (B'' := _) hi rfl (by simp; omega) b2 b3 rfl rfl hi]
      simp only [csbr2State, getLast?_take hi, Option.map_some]
      rw [take_succ_eq hi, hkn, hrn]
  · intro i hi b hb hkey
    obtain ⟨G0, g, e1, e2, hgb, hg⟩ := runs_same Element.block _ es[i] b hb hkey
    have hks := runKeys_same Element.block _ es[i] b hb hkey
    have hgl : g.length < M - 1 := by
      have : (runs Element.block (es.take i)).flatten.length = i := runs_flatten_length Element.block es (by omega)
      rw [e1] at this
      simp at this; omega
    have hG0 : G0.length < (runs Element.block es).length := by
      have h := runs_take_le Element.block es i
      rw [e1] at h; simp at h; omega
    have hbs := blkBuf_same (n := (runs Element.block es).length) (key := Element.block)
      (F := cntRow2 fR blockcols) (G0 := G0) (g := g) (a := es[i]) hG0 hg
    rw [hgb] at hbs
    have hlen' : (runs Element.block (es.take i)).length - 1 = G0.length := by rw [e1]; simp
    rw [hlen']
    rw [csbr2Element_ok H (g := g) (base := startOf G0 G0.length) (n := es.length)
      (B'' := blkBuf (runs Element.block es).length Element.block (cntRow2 fR blockcols) (G0 ++ [g ++ [es[i]]]))
      hi (by simp [csbr2State, hb, hkey]) (by omega) (by simp only [csbr2State, e1]; exact hbs.1)
      (by simp only [csbr2State, e1]; exact hbs.2) rfl rfl hi]
    simp only [csbr2State, getLast?_take hi, Option.map_some, hb, hkey]
    rw [take_succ_eq hi, hks, e2]

/-- Prefix sum of a counting array whose first cell was set to `base`. -/
theorem prefixSum_base {α : Type} {M n : Nat} (l : List α) (f : α → Nat) (base : Nat) (hM : base + l.length < M) :
    (do
      let rp ← (Buf.full (n + 1) (fun k => l.countP (fun e => f e + 1 == k))).put 0 base
      prefixSum M rp n) =
      .ok (Buf.full (n + 1) (fun k => if k ≤ n then base + l.countP (fun e => decide (f e < k))
          else l.countP (fun e => f e + 1 == k))) := by
  rw [Buf.put_full (by omega), ok_bind]
  have hp : ∀ k, psum (fun k => if k = 0 then base else l.countP (fun e => f e + 1 == k)) k =
      base + l.countP (fun e => decide (f e < k)) := by
    intro k
    induction k with
    | zero => simp [psum]
    | succ k ih =>
      have h := psum_count l f (k + 1)
      have h0 := psum_count l f k
      simp only [psum] at h ⊢
      rw [ih, if_neg (by omega)]
      omega
  rw [prefixSum_full _ (by omega)]
  · congr 2; funext k
    rw [hp]
    by_cases hk : k ≤ n
    · simp [hk]
    · rw [if_neg hk, if_neg hk, if_neg (by omega)]
  · rw [hp]
    have := List.countP_le_length (p := fun e => decide (f e < n)) (l := l)
    omega

theorem accumulateCsbr2_ok (H : BlkIn M fR fC blockrows blockcols es)
    (hR : ∀ i, i ≤ blockrows → rd offR i = .ok (fR i))
    (hmono : ∀ i, i < blockrows → fR i ≤ fR (i + 1)) (hMr : ∀ i, i ≤ blockrows → fR i < M) :
    accumulateCsbr2 M offR blockrows (Buf.full (blockrows + 1) (fun k => if k ≤ blockrows then
      (runKeys Element.block es).countP (fun κ => decide (κ / blockcols < k))
      else (runKeys Element.block es).countP (fun κ => κ / blockcols + 1 == k)))
      (blkBuf (runs Element.block es).length Element.block (cntRow2 fR blockcols) (runs Element.block es)) =
      .ok (es.length, blkBuf (runs Element.block es).length Element.block (ptrRow2 fR blockcols) (runs Element.block es)) := by
  have hlen := H.len
  have hs : (runKeys Element.block es).Pairwise (fun a b => a / blockcols ≤ b / blockcols) :=
    (runKeys_strict H).imp (fun h => Nat.div_le_div_right (Nat.le_of_lt h))
  have hrange : ∀ κ ∈ runKeys Element.block es, κ / blockcols < blockrows := by
    intro κ hκ
    obtain ⟨e, he, rfl⟩ := (mem_runKeys Element.block es κ).1 hκ
    exact H.row e he
  let Φ : Nat → Nat × Buf (Buf Nat) := fun k => (startOf (runs Element.block es) k,
    ⟨(runs Element.block es).length, fun j => ((runs Element.block es)[j]?).map (fun g =>
      if j < k then ptrRow2 fR blockcols (runKey Element.block g) (startOf (runs Element.block es) j) g
      else cntRow2 fR blockcols (runKey Element.block g) (startOf (runs Element.block es) j) g)⟩)
  unfold accumulateCsbr2
  have hloop := rowLoop (runKeys Element.block es) (· / blockcols) hs blockrows hrange
    (fun br s => do
      let e ← rd offR (addM M br 1)
      let b ← rd offR br
      let lo ← (Buf.full (blockrows + 1) (fun k => if k ≤ blockrows then
        (runKeys Element.block es).countP (fun κ => decide (κ / blockcols < k))
        else (runKeys Element.block es).countP (fun κ => κ / blockcols + 1 == k))).get br
      let hi ← (Buf.full (blockrows + 1) (fun k => if k ≤ blockrows then
        (runKeys Element.block es).countP (fun κ => decide (κ / blockcols < k))
        else (runKeys Element.block es).countP (fun κ => κ / blockcols + 1 == k))).get (br + 1)
      forLoop lo hi s fun k s => do
        let rp ← s.2.get k
        let rp ← rp.put 0 s.1
        let rp ← prefixSum M rp (subM M e b)
        let c ← rp.get (subM M e b)
        let rps ← s.2.put k rp
        .ok (c, rps)) Φ (by
      intro br hbr
      have hb := H.brM
      have h1 := hmono br hbr
      have h2 := hMr (br + 1) (by omega)
      rw [addM_eq (by omega), hR _ (by omega), ok_bind, hR _ (by omega), ok_bind, Buf.get_full (by omega), ok_bind,
        Buf.get_full (by omega), ok_bind, if_pos (by omega), if_pos (by omega)]
      refine rowLoop_inner (runKeys Element.block es) (· / blockcols) hs br _ Φ ?_
      intro k hk hkb
      have hk' : k < (runs Element.block es).length := by simpa using hk
      have hrm := run_mem Element.block es k hk'
      rw [runKeys_getElem _ _ _ hk'] at hkb
      have hget : (Φ k).2.get k = .ok (cntRow2 fR blockcols (runKey Element.block (runs Element.block es)[k])
          (startOf (runs Element.block es) k) (runs Element.block es)[k]) :=
        Buf.get_ok hk' (by simp [Φ, hk'])
      have hst : startOf (runs Element.block es) k + (runs Element.block es)[k].length ≤ es.length := by
        rw [startOf_runs, ← runStart_succ _ _ _ hk', ← runStart_length Element.block es]
        unfold runStart
        exact (List.Sublist.map _ (List.take_sublist_take_left (by omega))).sum_le_sum (by simp)
      rw [hget, ok_bind, subM_eq h2 h1]
      have hpre := prefixSum_base (M := M) (n := fR (br + 1) - fR br) (runs Element.block es)[k]
        (fun e => e.row - fR (e.block / blockcols)) (startOf (runs Element.block es) k) (by omega)
      rw [← bind_assoc]
      simp only [cntRow2, hkb]
      simp only [Φ] at hpre ⊢
      rw [hpre, ok_bind, Buf.get_full (by omega), ok_bind, if_pos (Nat.le_refl _), countP_lt_all, Buf.put_ok hk', ok_bind]
      · congr 1
        refine Prod.ext ?_ ?_
        · simp only; rw [startOf_runs, startOf_runs, runStart_succ _ _ _ hk']
        · refine Buf.ext' rfl (fun j => ?_)
          simp only
          by_cases hj : j = k
          · subst hj; simp [hk', ptrRow2, hkb]
          · have : (j < k + 1) ↔ (j < k) := by omega
            simp [hj, this]
      · intro e he
        have := H.inR e (hrm.1 e he).1
        rw [(hrm.1 e he).2, hkb] at this
        rw [(hrm.1 e he).2, hkb]; omega)
  have hΦ0 : Φ 0 = (0, blkBuf (runs Element.block es).length Element.block (cntRow2 fR blockcols) (runs Element.block es)) := by
    simp [Φ, startOf, blkBuf]
  have hΦn : Φ (runKeys Element.block es).length = (es.length, blkBuf (runs Element.block es).length Element.block
      (ptrRow2 fR blockcols) (runs Element.block es)) := by
    refine Prod.ext ?_ ?_
    · simp only [Φ, runKeys_length]; rw [startOf_runs, runStart_length]
    · refine Buf.ext' rfl (fun j => ?_)
      simp only [Φ, blkBuf, runKeys_length]
      by_cases hj : j < (runs Element.block es).length
      · simp [hj]
      · rw [List.getElem?_eq_none (by omega)]; rfl
  rw [hΦ0, hΦn] at hloop
  exact hloop

/-- The constructed matrix. -/
def csbr2Of (fR : Nat → Nat) (offR offC : List Nat) (rows columns blockrows blockcols : Nat) (es : List (Element T)) : Csbr2 T where
  blockrowPtr := Buf.full (blockrows + 1) (fun k => if k ≤ blockrows then
      (runKeys Element.block es).countP (fun κ => decide (κ / blockcols < k))
    else (runKeys Element.block es).countP (fun κ => κ / blockcols + 1 == k))
  offR := offR
  offC := offC
  blockrows := blockrows
  blockcols := blockcols
  nnzblocks := (runs Element.block es).length
  rows := rows
  columns := columns
  nnz := es.length
  rowPtr := blkBuf (runs Element.block es).length Element.block (ptrRow2 fR blockcols) (runs Element.block es)
  colInd := ⟨es.length, fun k => (es[k]?).map (fun e => e.col)⟩
  val := ⟨es.length, fun k => (es[k]?).map (fun e => e.val)⟩

theorem csbr2State_zero (H : BlkIn M fR fC blockrows blockcols es) :
    csbr2State fR fC blockcols blockrows (runs Element.block es).length es 0 =
      ⟨none, Buf.filled (addM M blockrows 1) 0, Buf.uninit (runs Element.block es).length,
        Buf.uninit es.length, Buf.uninit es.length⟩ := by
  have := H.brM
  rw [addM_eq (by omega)]
  simp [csbr2State, runKeys, runs, Buf.full, Buf.filled, Buf.uninit, blkBuf]

theorem csbr2Build_ok (H : BlkIn M fR fC blockrows blockcols es) (hbr : blockrows ≤ rows) (hbc : blockcols ≤ columns)
    (hR : ∀ i, i ≤ blockrows → rd offR i = .ok (fR i)) (hC : ∀ i, i ≤ blockcols → rd offC i = .ok (fC i))
    (hmono : ∀ i, i < blockrows → fR i ≤ fR (i + 1)) (hMr : ∀ i, i ≤ blockrows → fR i < M)
    (hr : fR blockrows = rows) (hc : fC blockcols = columns) :
    csbr2Build M es rows columns offR blockrows offC blockcols =
      .ok (csbr2Of fR offR offC rows columns blockrows blockcols es) := by
  unfold csbr2Build
  rw [countBlocks_spec M es H.ne H.len H.sortedB, ok_bind, checkPartition_ok hbr hbc hR hC hr hc, ok_bind]
  obtain ⟨r, h1, h2⟩ := csbr2Scan_ok H hR hC
  rw [csbr2State_zero H] at h1
  simp only
  rw [h1, ok_bind, h2]
  have hpre := prefixSum_count (M := M) (runKeys Element.block es) (fun κ => κ / blockcols) (n := blockrows) (len := blockrows + 1) rfl
    (by rw [runKeys_length]; exact Nat.lt_of_le_of_lt (runs_length_le _ _) H.len)
  simp only [csbr2State, List.take_length]
  rw [hpre, ok_bind, accumulateCsbr2_ok H hR hmono hMr, ok_bind, Buf.get_full (by omega), ok_bind]
  simp only [Nat.le_refl, if_true]
  rw [runKeys_countP_row H, cassert_ok (by simp), ok_bind]
  rfl

theorem csbr2_spmv [Add T] [Mul T] (H : BlkIn M fR fC blockrows blockcols es)
    (hR : ∀ i, i ≤ blockrows → rd offR i = .ok (fR i))
    (hmono : ∀ i j, i ≤ j → j ≤ blockrows → fR i ≤ fR j) (hMr : ∀ i, i ≤ blockrows → fR i < M)
    (hr : fR blockrows = rows)
    (nx ny : Nat) (hx : ∀ e ∈ es, e.col < nx) (hy : rows ≤ ny) (x y : Nat → T) :
    Csbr2.spmv M (csbr2Of fR offR offC rows columns blockrows blockcols es)
      (Buf.full nx x) (Buf.full ny y) = .ok (Buf.full ny (spmvInOrder (ents es) x y)) := by
  unfold Csbr2.spmv
  have hs : (runKeys Element.block es).Pairwise (fun a b => a / blockcols ≤ b / blockcols) :=
    (runKeys_strict H).imp (fun h => Nat.div_le_div_right (Nat.le_of_lt h))
  have hrange : ∀ κ ∈ runKeys Element.block es, κ / blockcols < blockrows := by
    intro κ hκ
    obtain ⟨e, he, rfl⟩ := (mem_runKeys Element.block es κ).1 hκ
    exact H.row e he
  have hloop := rowLoop (runKeys Element.block es) (· / blockcols) hs blockrows hrange
    (Csbr2.spmvRow M (csbr2Of fR offR offC rows columns blockrows blockcols es) (Buf.full nx x))
    (fun k => Buf.full ny (visit x y (allEnts blockcols fR (runKeys Element.block es) (blkEnts fR blockcols es) k))) (by
      intro br hbr
      have hb := H.brM
      have m1 := hmono br (br + 1) (by omega) (by omega)
      have m2 := hmono (br + 1) blockrows (by omega) (by omega)
      have m3 := hMr (br + 1) (by omega)
      unfold Csbr2.spmvRow
      simp only [csbr2Of]
      rw [addM_eq (by omega), hR _ (by omega), ok_bind, hR _ (by omega), ok_bind, Buf.get_full (by omega), ok_bind,
        Buf.get_full (by omega), ok_bind, if_pos (by omega), if_pos (by omega)]
      refine rowLoop_inner (runKeys Element.block es) (· / blockcols) hs br _
        (fun k => Buf.full ny (visit x y (allEnts blockcols fR (runKeys Element.block es) (blkEnts fR blockcols es) k))) ?_
      intro k hk hkb
      have hk' : k < (runs Element.block es).length := by simpa using hk
      have hm := (run_mem Element.block es k hk').1
      rw [runKeys_getElem _ _ _ hk'] at hkb
      have hget : (blkBuf (runs Element.block es).length Element.block (ptrRow2 fR blockcols) (runs Element.block es)).get k =
        .ok (ptrRow2 fR blockcols (runKey Element.block (runs Element.block es)[k]) (runStart Element.block es k)
          (runs Element.block es)[k]) := by
        refine Buf.get_ok hk' ?_
        simp [blkBuf, hk', startOf_runs]
      rw [hget, ok_bind, subM_eq m3 m1]
      have R : CsrRep (blkEnts fR blockcols es k) (runStart Element.block es k) (fR (br + 1) - fR br)
          (ptrRow fR blockcols (runKey Element.block (runs Element.block es)[k]) (runStart Element.block es k)
            (runs Element.block es)[k]).rowPtr
          ⟨es.length, fun k => (es[k]?).map (fun e => e.col)⟩
          ⟨es.length, fun k => (es[k]?).map (fun e => e.val)⟩ := by
        rw [blkEnts_eq fR blockcols es hk']
        refine ⟨by simp [ptrRow, hkb], ?_, ?_, ?_, ?_, ?_⟩
        · intro i hi
          simp only [ptrRow, Buf.full_dat, hkb, if_pos hi, List.countP_map, Function.comp_def]
        · intro j hj
          have hj' : j < (runs Element.block es)[k].length := by simpa using hj
          have := runs_getElem Element.block es k hk' j hj'
          have hlt := (List.getElem?_eq_some_iff.1 this).1
          exact ⟨hlt, by simp [this]⟩
        · intro j hj
          have hj' : j < (runs Element.block es)[k].length := by simpa using hj
          have := runs_getElem Element.block es k hk' j hj'
          have hlt := (List.getElem?_eq_some_iff.1 this).1
          exact ⟨hlt, by simp [this]⟩
        · rw [List.pairwise_map]
          refine (run_sorted H hk').imp_of_mem (fun ha hb h => ?_)
          simp only [(hm _ ha).2, (hm _ hb).2]
          omega
        · intro e he
          obtain ⟨a, ha, rfl⟩ := List.mem_map.1 he
          have := H.inR a (hm a ha).1
          rw [(hm a ha).2, hkb] at this
          simp only [(hm a ha).2, hkb]
          omega
      rw [spmvCsrSerial_based R (by simp [ptrRow2, hkb]) (by
        intro i hi
        rw [blkEnts_eq fR blockcols es hk']
        simp only [ptrRow2, Buf.full_dat, hkb, if_pos hi, List.countP_map, Function.comp_def]) x _ (by
        intro e he
        rw [blkEnts_eq fR blockcols es hk'] at he
        obtain ⟨a, ha, rfl⟩ := List.mem_map.1 he
        have := hx a (hm a ha).1
        simp only; omega) (by omega), ← visit_eq, ← visit_append, allEnts_succ, List.getElem?_eq_getElem hk,
        Option.getD_some, runKeys_getElem _ _ _ hk', hkb])
  rw [allEnts_blkEnts H] at hloop
  rw [← visit_eq]
  exact hloop

theorem csbr2_main (PR : Partition offR blockrows rows) (PC : Partition offC blockcols columns)
    (hne : es ≠ []) (hlen : es.length < M) (hgrid : blockrows * blockcols < M) (hrows : rows + 1 < M)
    (hcols : columns < M) (hbr : blockrows ≤ rows) (hbc : blockcols ≤ columns) (hin : InRange (ents es) rows columns) :
    cooToCsbr2 M es rows columns offR blockrows offC blockcols =
        .ok (csbr2Of (offF offR) offR offC rows columns blockrows blockcols
            (prepared offR blockrows offC blockcols es), prepared offR blockrows offC blockcols es) := by
  have H := prepared_blkIn (M := M) PR PC hne hlen hgrid hrows hcols hbr (by omega) hin
  unfold cooToCsbr2
  rw [calculateBlockId_spec PR PC (by omega) (by omega) (by omega) hin, ok_bind]
  simp only
  have := csbr2Build_ok H hbr hbc (fun i hi => PR.rd_ok i hi) (fun i hi => PC.rd_ok i hi)
    (fun i hi => PR.mono (Nat.le_succ i) hi) (fun i hi => by have := PR.le_total hi; omega)
    PR.at_last PC.at_last
  unfold prepared at this
  rw [this, ok_bind]; rfl

end csbr2
end Gsb
