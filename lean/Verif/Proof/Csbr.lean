import Verif.Proof.BlockMat
/-
CSBR: the constructor's arrays in closed form, and its SpMV.
-/
namespace Gsb
variable {T : Type}

/-- Block-sorted elements whose block ids describe the block containing them. -/
structure BlkIn (M : Nat) (fR fC : Nat → Nat) (blockrows blockcols : Nat) (es : List (Element T)) : Prop where
  ne : es ≠ []
  len : es.length < M
  bcPos : 0 < blockcols
  sent : ∀ e ∈ es, e.block < M - 1
  row : ∀ e ∈ es, e.block / blockcols < blockrows
  inR : ∀ e ∈ es, fR (e.block / blockcols) ≤ e.row ∧ e.row < fR (e.block / blockcols + 1)
  inC : ∀ e ∈ es, fC (e.block % blockcols) ≤ e.col ∧ e.col < fC (e.block % blockcols + 1)
  maxR : ∀ e ∈ es, fR (e.block / blockcols + 1) + 1 < M
  maxC : ∀ e ∈ es, fC (e.block % blockcols + 1) < M
  brM : blockrows + 1 < M
  bcM : blockcols < M
  sortedB : es.Pairwise (fun a b => a.block ≤ b.block)
  sortedR : es.Pairwise (fun a b => a.block = b.block → a.row ≤ b.row)

section
variable (fR fC : Nat → Nat) (bc : Nat)

/-- `br_offset, bc_offset, br_size, bc_size` of a block id. -/
def curOf (κ : Nat) : Cur :=
  ⟨fR (κ / bc), fC (κ % bc), fR (κ / bc + 1) - fR (κ / bc), fC (κ % bc + 1) - fC (κ % bc)⟩

/-- The entry in coordinates local to its block. -/
def locEnt (e : Element T) : Ent T := ⟨e.row - fR (e.block / bc), e.col - fC (e.block % bc), e.val⟩

theorem assertInBlock_ok {M : Nat} {br : Nat} {es : List (Element T)} (H : BlkIn M fR fC br bc es) {e : Element T} (he : e ∈ es) :
    assertInBlock M (curOf fR fC bc e.block) e.row e.col = .ok () := by
  have h1 := H.inR e he
  have h2 := H.inC e he
  have h3 := H.maxR e he
  have h4 := H.maxC e he
  unfold assertInBlock curOf
  simp only
  rw [addM_eq (by omega), addM_eq (by omega), cassert_ok (by simpa using h1.1), ok_bind,
    cassert_ok (by simp; omega), ok_bind, cassert_ok (by simpa using h2.1), ok_bind,
    cassert_ok (by simp; omega)]

end

theorem runs_flatten_length {α : Type} (key : α → Nat) (es : List α) {i : Nat} (hi : i ≤ es.length) :
    (runs key (es.take i)).flatten.length = i := by
  rw [(runsOK key _).flat]; simp; omega

theorem elemBlock_ok (es : List (Element T)) (i : Nat) (h : i < es.length) :
    elemBlock es i = .ok es[i].block := by simp [elemBlock, rd_ok h]

/-- What a run of equal block ids gives. -/
theorem run_mem {α : Type} (key : α → Nat) (l : List α) (k : Nat) (hk : k < (runs key l).length) :
    (∀ a ∈ (runs key l)[k], a ∈ l ∧ key a = runKey key (runs key l)[k]) ∧ (runs key l)[k] ≠ [] ∧
    (runs key l)[k].length ≤ l.length := by
  have ok := runsOK key l
  have hm := List.getElem_mem hk
  refine ⟨fun a ha => ⟨?_, ok.same _ hm a ha⟩, ok.ne _ hm, ?_⟩
  · rw [← ok.flat]; exact List.mem_flatten.2 ⟨_, hm, ha⟩
  · conv => rhs; rw [← ok.flat]
    exact (List.sublist_flatten_of_mem hm).length_le

theorem runKeys_getElem {α : Type} (key : α → Nat) (l : List α) (k : Nat) (hk : k < (runs key l).length) :
    (runKeys key l)[k]'(by simpa using hk) = runKey key (runs key l)[k] := by simp [runKeys]

section csbr
variable {M : Nat} {offR offC : List Nat} {blockrows blockcols : Nat} {es : List (Element T)}

/-- `row_ptr` counters of one block. -/
def cntRow (fR : Nat → Nat) (bc : Nat) (κ base : Nat) (g : List (Element T)) : CsbrBlock :=
  ⟨fR (κ / bc + 1) - fR (κ / bc), base, Buf.full (fR (κ / bc + 1) - fR (κ / bc) + 1)
    (fun k => g.countP (fun e => e.row - fR (e.block / bc) + 1 == k))⟩

/-- `row_ptr` of one block after accumulation. -/
def ptrRow (fR : Nat → Nat) (bc : Nat) (κ base : Nat) (g : List (Element T)) : CsbrBlock :=
  ⟨fR (κ / bc + 1) - fR (κ / bc), base, Buf.full (fR (κ / bc + 1) - fR (κ / bc) + 1)
    (fun k => if k ≤ fR (κ / bc + 1) - fR (κ / bc) then
        g.countP (fun e => decide (e.row - fR (e.block / bc) < k))
      else g.countP (fun e => e.row - fR (e.block / bc) + 1 == k))⟩

/-- The state of the copying loop after `i` elements. -/
def csbrState (fR fC : Nat → Nat) (bc blockrows n : Nat) (es : List (Element T)) (i : Nat) : CsbrFill T :=
  ⟨(es.take i).getLast?.map (fun e => curOf fR fC bc e.block),
    Buf.full (blockrows + 1) (fun k => (runKeys Element.block (es.take i)).countP (fun κ => κ / bc + 1 == k)),
    ⟨n, fun k => ((runKeys Element.block (es.take i))[k]?).map (· % bc)⟩,
    blkBuf n Element.block (cntRow fR bc) (runs Element.block (es.take i)),
    ⟨es.length, fun k => ((es.take i)[k]?).map (fun e => e.col - fC (e.block % bc))⟩,
    ⟨es.length, fun k => ((es.take i)[k]?).map (fun e => e.val)⟩⟩

theorem blockCoords_ok {fR fC : Nat → Nat} (H : BlkIn M fR fC blockrows blockcols es)
    (hR : ∀ i, i ≤ blockrows → rd offR i = .ok (fR i)) (hC : ∀ i, i ≤ blockcols → rd offC i = .ok (fC i))
    {e : Element T} (he : e ∈ es) :
    blockCoords M offR offC blockcols e.block =
      .ok (e.block / blockcols, e.block % blockcols, curOf fR fC blockcols e.block) := by
  have h1 := H.row e he
  have h2 := Nat.mod_lt e.block H.bcPos
  have h3 := H.inR e he
  have h4 := H.inC e he
  have h5 := H.maxR e he
  have h6 := H.maxC e he
  have h7 := H.brM
  have h8 := H.bcM
  unfold blockCoords
  rw [cdiv_ok H.bcPos, ok_bind, cmod_ok H.bcPos, ok_bind, hR _ (by omega), ok_bind, hC _ (by omega), ok_bind,
    addM_eq (by omega), addM_eq (by omega), hR _ (by omega), ok_bind, hC _ (by omega), ok_bind,
    subM_eq (by omega) (by omega), subM_eq (by omega) (by omega)]
  rfl

theorem csbrElement_ok {fR fC : Nat → Nat} (H : BlkIn M fR fC blockrows blockcols es)
    {i bi base : Nat} {g : List (Element T)} {n : Nat} {s : CsbrFill T} {B'' : Buf CsbrBlock}
    (hi : i < es.length) (hcur : s.cur = some (curOf fR fC blockcols es[i].block))
    (hg : g.length + 1 < M)
    (hget : s.blocks.get bi = .ok (cntRow fR blockcols es[i].block base g))
    (hput : s.blocks.put bi (cntRow fR blockcols es[i].block base (g ++ [es[i]])) = .ok B'')
    (hci : s.colInd = ⟨n, fun k => ((es.take i)[k]?).map (fun e => e.col - fC (e.block % blockcols))⟩)
    (hv : s.val = ⟨n, fun k => ((es.take i)[k]?).map (fun e => e.val)⟩) (hn : i < n) :
    csbrElement M es i bi s = .ok { s with
      blocks := B''
      colInd := ⟨n, fun k => ((es.take (i + 1))[k]?).map (fun e => e.col - fC (e.block % blockcols))⟩
      val := ⟨n, fun k => ((es.take (i + 1))[k]?).map (fun e => e.val)⟩ } := by
  have he := List.getElem_mem hi
  have h1 := H.inR _ he
  have h2 := H.inC _ he
  have h3 := H.maxR _ he
  have h4 := H.maxC _ he
  unfold csbrElement
  rw [rd_ok hi, ok_bind, hcur]
  simp only [needCur, ok_bind]
  rw [assertInBlock_ok fR fC blockcols H he, ok_bind, hget, ok_bind]
  simp only [curOf]
  rw [subM_eq (by omega) h1.1, subM_eq (by omega) h2.1, addM_eq (by omega)]
  have hinc := incr_count (M := M) g (fun e : Element T => e.row - fR (e.block / blockcols)) es[i]
    (len := fR (es[i].block / blockcols + 1) - fR (es[i].block / blockcols) + 1) (by omega) hg
  simp only [cntRow] at hput hinc ⊢
  rw [hinc, ok_bind, hput, ok_bind, hci, hv]
  rw [fill_put (es.take i) (fun e : Element T => e.col - fC (e.block % blockcols)) es[i] (by simp; omega) hn, ok_bind,
    fill_put (es.take i) (fun e : Element T => e.val) es[i] (by simp; omega) hn, ok_bind, take_succ_eq hi]

/-- The whole copying loop. -/
theorem csbrScan_ok {fR fC : Nat → Nat} (H : BlkIn M fR fC blockrows blockcols es)
    (hR : ∀ i, i ≤ blockrows → rd offR i = .ok (fR i)) (hC : ∀ i, i ≤ blockcols → rd offC i = .ok (fC i)) :
    ∃ r : Scan (CsbrFill T), forLoop 0 es.length (⟨M - 1, M - 1,
        csbrState fR fC blockcols blockrows (runs Element.block es).length es 0⟩ : Scan (CsbrFill T))
      (scanStep M (elemBlock es) (csbrNewBlock M offR offC blockcols) (csbrElement M es)) = .ok r ∧
      r.st = csbrState fR fC blockcols blockrows (runs Element.block es).length es es.length := by
  have hlen := H.len
  refine scan_spec es Element.block _ _ _ H.len H.sent (elemBlock_ok es)
    (csbrState fR fC blockcols blockrows (runs Element.block es).length es) ?_ ?_
  · intro i hi hnew
    have he := List.getElem_mem hi
    have h1 := H.inR _ he
    have h2 := H.inC _ he
    have h3 := H.maxR _ he
    have h4 := H.maxC _ he
    have h5 := H.row _ he
    have h6 := H.brM
    have hrn := runs_new Element.block _ _ hnew
    have hkn := runKeys_new Element.block _ _ hnew
    have hGn : (runs Element.block (es.take i)).length < (runs Element.block es).length := by
      have h := runs_take_le Element.block es (i + 1)
      rw [take_succ_eq hi, hrn] at h; simp at h; omega
    have hrl := runs_length_le Element.block (es.take i)
    have hil : (es.take i).length = i := by simp; omega
    obtain ⟨B', b1, b2, b3⟩ := blkBuf_new (n := (runs Element.block es).length) (key := Element.block)
      (F := cntRow fR blockcols) (a := es[i]) hGn
    rw [runs_flatten_length Element.block es (by omega)] at b1 b2 b3
    have hinc := incr_count (M := M) (runKeys Element.block (es.take i)) (fun κ => κ / blockcols) es[i].block
      (len := blockrows + 1) (by omega) (by rw [runKeys_length]; omega)
    refine ⟨⟨some (curOf fR fC blockcols es[i].block),
      Buf.full (blockrows + 1) (fun k => (runKeys Element.block (es.take i) ++ [es[i].block]).countP (fun κ => κ / blockcols + 1 == k)),
      ⟨(runs Element.block es).length, fun k => ((runKeys Element.block (es.take i) ++ [es[i].block])[k]?).map (· % blockcols)⟩,
      B', ⟨es.length, fun k => ((es.take i)[k]?).map (fun e => e.col - fC (e.block % blockcols))⟩,
      ⟨es.length, fun k => ((es.take i)[k]?).map (fun e => e.val)⟩⟩, ?_, ?_⟩
    · unfold csbrNewBlock
      rw [blockCoords_ok H hR hC he, ok_bind]
      simp only [csbrState, curOf]
      rw [addM_eq (by omega), addM_eq (by omega), hinc, ok_bind,
        fill_put (runKeys Element.block (es.take i)) (· % blockcols) es[i].block (by simp) hGn, ok_bind]
      have hF : (⟨fR (es[i].block / blockcols + 1) - fR (es[i].block / blockcols), i,
          Buf.filled (fR (es[i].block / blockcols + 1) - fR (es[i].block / blockcols) + 1) 0⟩ : CsbrBlock) =
          cntRow fR blockcols es[i].block i ([] : List (Element T)) := by simp [cntRow, Buf.filled, Buf.full]
      rw [hF, b1, ok_bind]
    · rw [csbrElement_ok H (g := []) (base := i) (n := es.length) (B'' := _) hi rfl (by simp; omega) b2 b3 rfl rfl hi]
      simp only [csbrState, getLast?_take hi, Option.map_some]
      rw [take_succ_eq hi, hkn, hrn]
  · intro i hi b hb hkey
    obtain ⟨G0, g, e1, e2, hgb, hg⟩ := runs_same Element.block _ es[i] b hb hkey
    have hks := runKeys_same Element.block _ es[i] b hb hkey
    have hgl : g.length < M - 1 := by
      have : (runs Element.block (es.take i)).flatten.length = i := runs_flatten_length Element.block es (by omega)
      rw [e1] at this
      simp at this; omega
    have hG0 : G0.length < (runs Element.block es).length := by
      have h := runs_take_le Element.block es i
      rw [e1] at h; simp at h; omega
    have hbs := blkBuf_same (n := (runs Element.block es).length) (key := Element.block)
      (F := cntRow fR blockcols) (G0 := G0) (g := g) (a := es[i]) hG0 hg
    have hrk : runKey Element.block g = es[i].block := hgb
    rw [hrk] at hbs
    have hlen' : (runs Element.block (es.take i)).length - 1 = G0.length := by rw [e1]; simp
    rw [hlen']
    rw [csbrElement_ok H (g := g) (base := startOf G0 G0.length) (n := es.length)
      (B'' := blkBuf (runs Element.block es).length Element.block (cntRow fR blockcols) (G0 ++ [g ++ [es[i]]]))
      hi (by simp [csbrState, hb, hkey]) (by omega) (by simp only [csbrState, e1]; exact hbs.1)
      (by simp only [csbrState, e1]; exact hbs.2) rfl rfl hi]
    simp only [csbrState, getLast?_take hi, Option.map_some, hb, hkey]
    rw [take_succ_eq hi, hks, e2]

/-- The constructed matrix (without its unused load-balancing partition). -/
def csbrOf (fR fC : Nat → Nat) (offR offC : List Nat) (rows columns blockrows blockcols : Nat) (es : List (Element T)) : Csbr T where
  blocks := blkBuf (runs Element.block es).length Element.block (ptrRow fR blockcols) (runs Element.block es)
  blockrowPtr := Buf.full (blockrows + 1) (fun k => if k ≤ blockrows then
      (runKeys Element.block es).countP (fun κ => decide (κ / blockcols < k))
    else (runKeys Element.block es).countP (fun κ => κ / blockcols + 1 == k))
  blockcolInd := ⟨(runs Element.block es).length, fun k => ((runKeys Element.block es)[k]?).map (· % blockcols)⟩
  offR := offR
  offC := offC
  blockrows := blockrows
  blockcols := blockcols
  nnzblocks := (runs Element.block es).length
  partition := []
  rows := rows
  columns := columns
  nnz := es.length
  colInd := ⟨es.length, fun k => (es[k]?).map (fun e => e.col - fC (e.block % blockcols))⟩
  val := ⟨es.length, fun k => (es[k]?).map (fun e => e.val)⟩

theorem accumulateBlocks_ok {fR fC : Nat → Nat} (H : BlkIn M fR fC blockrows blockcols es) :
    accumulateBlocks M (runs Element.block es).length
      (blkBuf (runs Element.block es).length Element.block (cntRow fR blockcols) (runs Element.block es)) =
      .ok (blkBuf (runs Element.block es).length Element.block (ptrRow fR blockcols) (runs Element.block es)) := by
  have := mapBuf_loop (n := (runs Element.block es).length) (runs Element.block es)
    (fun k g => cntRow fR blockcols (runKey Element.block g) (startOf (runs Element.block es) k) g)
    (fun k g => ptrRow fR blockcols (runKey Element.block g) (startOf (runs Element.block es) k) g)
    (fun blk => do
      let rp ← prefixSum M blk.rowPtr blk.rows
      .ok { blk with rowPtr := rp }) rfl (by
      intro k hk
      have hrm := run_mem Element.block es k hk
      simp only [cntRow]
      rw [prefixSum_count _ _ rfl (Nat.lt_of_le_of_lt hrm.2.2 H.len)]
      rfl)
  unfold accumulateBlocks
  unfold blkBuf
  rw [← this]
  congr 1
  funext k b
  cases b.get k with
  | error e => rfl
  | ok blk =>
    simp only [ok_bind]
    cases prefixSum M blk.rowPtr blk.rows <;> rfl

theorem checkPartition_ok {fR fC : Nat → Nat} {rows columns : Nat} (hbr : blockrows ≤ rows) (hbc : blockcols ≤ columns)
    (hR : ∀ i, i ≤ blockrows → rd offR i = .ok (fR i)) (hC : ∀ i, i ≤ blockcols → rd offC i = .ok (fC i))
    (hr : fR blockrows = rows) (hc : fC blockcols = columns) :
    checkPartition offR blockrows rows offC blockcols columns = .ok () := by
  unfold checkPartition
  rw [cassert_ok (by simpa using hbr), ok_bind, cassert_ok (by simpa using hbc), ok_bind, hR _ (Nat.le_refl _), ok_bind,
    cassert_ok (by simpa using hr), ok_bind, hC _ (Nat.le_refl _), ok_bind, cassert_ok (by simpa using hc)]

theorem csbrState_zero {fR fC : Nat → Nat} (H : BlkIn M fR fC blockrows blockcols es) :
    csbrState fR fC blockcols blockrows (runs Element.block es).length es 0 =
      ⟨none, Buf.filled (addM M blockrows 1) 0, Buf.uninit (runs Element.block es).length,
        Buf.uninit (runs Element.block es).length, Buf.uninit es.length, Buf.uninit es.length⟩ := by
  have := H.brM
  rw [addM_eq (by omega)]
  simp [csbrState, runKeys, runs, Buf.full, Buf.filled, Buf.uninit, blkBuf]

theorem runKeys_countP_row {fR fC : Nat → Nat} (H : BlkIn M fR fC blockrows blockcols es) :
    (runKeys Element.block es).countP (fun κ => decide (κ / blockcols < blockrows)) = (runs Element.block es).length := by
  rw [countP_lt_all _ (· / blockcols) blockrows, runKeys_length]
  intro κ hκ
  obtain ⟨e, he, rfl⟩ := (mem_runKeys Element.block es κ).1 hκ
  exact H.row e he

/-- The matrix after the constructor, with its load-balancing partition. -/
theorem csbrBuild_ok [Add T] [Mul T] {workers rows columns : Nat} {fR fC : Nat → Nat}
    (H : BlkIn M fR fC blockrows blockcols es) (hbr : blockrows ≤ rows) (hbc : blockcols ≤ columns)
    (hR : ∀ i, i ≤ blockrows → rd offR i = .ok (fR i)) (hC : ∀ i, i ≤ blockcols → rd offC i = .ok (fC i))
    (hr : fR blockrows = rows) (hc : fC blockcols = columns)
    (P : List (List Nat))
    (hP : partitionInit M workers (csbrOf fR fC offR offC rows columns blockrows blockcols es).toBlockMat = .ok P) :
    csbrBuild M workers es rows columns offR blockrows offC blockcols =
      .ok { csbrOf fR fC offR offC rows columns blockrows blockcols es with partition := P } := by
  unfold csbrBuild
  rw [countBlocks_spec M es H.ne H.len H.sortedB, ok_bind, checkPartition_ok hbr hbc hR hC hr hc, ok_bind]
  obtain ⟨r, h1, h2⟩ := csbrScan_ok H hR hC
  rw [csbrState_zero H] at h1
  simp only
  rw [h1, ok_bind, h2]
  have hpre := prefixSum_count (M := M) (runKeys Element.block es) (fun κ => κ / blockcols) (n := blockrows) (len := blockrows + 1) rfl
    (by rw [runKeys_length]; exact Nat.lt_of_le_of_lt (runs_length_le _ _) H.len)
  simp only [csbrState, List.take_length]
  rw [accumulateBlocks_ok H, ok_bind, hpre, ok_bind, Buf.get_full (by omega), ok_bind]
  simp only [Nat.le_refl, if_true]
  rw [runKeys_countP_row H, cassert_ok (by simp), ok_bind]
  have := hP
  simp only [csbrOf] at this ⊢
  rw [this, ok_bind]

/-- The entries of block `k`: local rows, global columns. -/
def blkEnts (fR : Nat → Nat) (bc : Nat) (es : List (Element T)) (k : Nat) : List (Ent T) :=
  (((runs Element.block es)[k]?).getD []).map (fun e => ⟨e.row - fR (e.block / bc), e.col, e.val⟩)

theorem blkEnts_eq (fR : Nat → Nat) (bc : Nat) (es : List (Element T)) {k : Nat} (hk : k < (runs Element.block es).length) :
    blkEnts fR bc es k = ((runs Element.block es)[k]).map (fun e => ⟨e.row - fR (e.block / bc), e.col, e.val⟩) := by
  simp [blkEnts, hk]

theorem runKeys_strict {fR fC : Nat → Nat} (H : BlkIn M fR fC blockrows blockcols es) :
    (runKeys Element.block es).Pairwise (· < ·) := runKeys_sorted Element.block es H.sortedB

theorem run_sorted {fR fC : Nat → Nat} (H : BlkIn M fR fC blockrows blockcols es) {k : Nat}
    (hk : k < (runs Element.block es).length) :
    ((runs Element.block es)[k]).Pairwise (fun a b => a.row ≤ b.row) := by
  have hsub : ((runs Element.block es)[k]).Sublist es := by
    conv => rhs; rw [← (runsOK Element.block es).flat]
    exact List.sublist_flatten_of_mem (List.getElem_mem hk)
  have h1 := H.sortedR.sublist hsub
  have hm := (run_mem Element.block es k hk).1
  exact h1.imp_of_mem (fun ha hb h => h (by rw [(hm _ ha).2, (hm _ hb).2]))

/-- In global coordinates the blocks hold exactly the elements, in storage order. -/
theorem allEnts_blkEnts {fR fC : Nat → Nat} (H : BlkIn M fR fC blockrows blockcols es) :
    allEnts blockcols fR (runKeys Element.block es) (blkEnts fR blockcols es) (runKeys Element.block es).length = ents es := by
  unfold allEnts
  have hmap : (List.range (runKeys Element.block es).length).map (fun k =>
      shift (fR (((runKeys Element.block es)[k]?.getD 0) / blockcols)) 0 (blkEnts fR blockcols es k)) =
      (runs Element.block es).map (List.map (NZ.toEnt)) := by
    refine List.ext_getElem (by simp) ?_
    intro k h1 h2
    have hk : k < (runs Element.block es).length := by simpa using h2
    have hm := (run_mem Element.block es k hk).1
    have hkl : k < (runKeys Element.block es).length := by simpa using hk
    simp only [List.getElem_map, List.getElem_range]
    rw [blkEnts_eq fR blockcols es hk, List.getElem?_eq_getElem hkl, Option.getD_some, runKeys_getElem _ _ _ hk]
    unfold shift
    rw [List.map_map]
    refine List.map_congr_left (fun e he => ?_)
    have h3 := hm e he
    have h4 := H.inR e h3.1
    simp only [Function.comp, NZ.toEnt, ← h3.2, Nat.zero_add]
    rw [Nat.add_sub_cancel' h4.1]
  rw [hmap, ← List.map_flatten, (runsOK Element.block es).flat]
  rfl

theorem shift_add (a b c d : Nat) (l : List (Ent T)) : shift a b (shift c d l) = shift (a + c) (b + d) l := by
  simp [shift, List.map_map, Function.comp_def, Nat.add_assoc]

/-- Each block of the constructed matrix multiplies correctly wherever it is placed. -/
theorem csbr_blockRep [Add T] [Mul T] {rows columns : Nat} {fR fC : Nat → Nat}
    (H : BlkIn M fR fC blockrows blockcols es)
    (hR : ∀ i, i ≤ blockrows → rd offR i = .ok (fR i)) (hC : ∀ i, i ≤ blockcols → rd offC i = .ok (fC i))
    (hmono : ∀ i, i < blockrows → fR i ≤ fR (i + 1))
    (nx : Nat) (hx : ∀ e ∈ es, e.col < nx) (x : Nat → T) (P : List (List Nat)) :
    BlockRep (Csbr.toBlockMat { csbrOf fR fC offR offC rows columns blockrows blockcols es with partition := P })
      blockcols fR fC (runKeys Element.block es) nx x (blkEnts fR blockcols es) := by
  refine ⟨H.bcPos, runKeys_strict H, ?_, ?_, ?_, hR, fun i hi => hC i (Nat.le_of_lt hi), hmono, ?_, ?_⟩
  · intro κ hκ
    obtain ⟨e, he, rfl⟩ := (mem_runKeys Element.block es κ).1 hκ
    exact H.row e he
  · intro i hi
    have hi' : i ≤ blockrows := hi
    simp only [Csbr.toBlockMat, csbrOf]
    rw [Buf.get_full (by omega), if_pos hi']
  · intro k hk
    simp only [Csbr.toBlockMat, csbrOf]
    exact Buf.get_ok (by simpa using hk) (by simp only; rw [List.getElem?_eq_getElem hk]; rfl)
  · intro k hk ny yo y hy
    have hk' : k < (runs Element.block es).length := by simpa using hk
    have hm := (run_mem Element.block es k hk').1
    rw [runKeys_getElem _ _ _ hk'] at hy ⊢
    simp only [Csbr.toBlockMat, csbrOf]
    have hget : (blkBuf (runs Element.block es).length Element.block (ptrRow fR blockcols) (runs Element.block es)).get k =
      .ok (ptrRow fR blockcols (runKey Element.block (runs Element.block es)[k]) (runStart Element.block es k)
        (runs Element.block es)[k]) := by
      refine Buf.get_ok hk' ?_
      simp [blkBuf, hk', startOf_runs]
    rw [hget, ok_bind]
    have R : CsrRep (((runs Element.block es)[k]).map (locEnt fR fC blockcols)) (runStart Element.block es k)
        (ptrRow fR blockcols (runKey Element.block (runs Element.block es)[k]) (runStart Element.block es k)
          (runs Element.block es)[k]).rows
        (ptrRow fR blockcols (runKey Element.block (runs Element.block es)[k]) (runStart Element.block es k)
          (runs Element.block es)[k]).rowPtr
        ⟨es.length, fun k => (es[k]?).map (fun e => e.col - fC (e.block % blockcols))⟩
        ⟨es.length, fun k => (es[k]?).map (fun e => e.val)⟩ := by
      refine ⟨by simp [ptrRow], ?_, ?_, ?_, ?_, ?_⟩
      · intro i hi
        have hi' : i ≤ fR (runKey Element.block (runs Element.block es)[k] / blockcols + 1) -
          fR (runKey Element.block (runs Element.block es)[k] / blockcols) := hi
        simp only [ptrRow, Buf.full_dat, if_pos hi', List.countP_map, Function.comp_def, locEnt]; rfl
      · intro j hj
        have hj' : j < (runs Element.block es)[k].length := by simpa using hj
        have := runs_getElem Element.block es k hk' j hj'
        have hlt := (List.getElem?_eq_some_iff.1 this).1
        exact ⟨hlt, by simp [this, locEnt]⟩
      · intro j hj
        have hj' : j < (runs Element.block es)[k].length := by simpa using hj
        have := runs_getElem Element.block es k hk' j hj'
        have hlt := (List.getElem?_eq_some_iff.1 this).1
        exact ⟨hlt, by simp [this, locEnt]⟩
      · rw [List.pairwise_map]
        refine (run_sorted H hk').imp_of_mem (fun ha hb h => ?_)
        simp only [locEnt, (hm _ ha).2, (hm _ hb).2]
        omega
      · intro e he
        obtain ⟨a, ha, rfl⟩ := List.mem_map.1 he
        have := H.inR a (hm a ha).1
        simp only [locEnt, ptrRow, ← (hm a ha).2]
        omega
    have := spmvCsr_spec R (nx := nx) (ny := ny) (xo := fC (runKey Element.block (runs Element.block es)[k] % blockcols))
      (yo := yo) x y (by
        intro e he
        obtain ⟨a, ha, rfl⟩ := List.mem_map.1 he
        have h1 := H.inC a (hm a ha).1
        have h2 := hx a (hm a ha).1
        simp only [locEnt, ← (hm a ha).2]
        omega) hy
    rw [← visit_eq] at this
    have e2 : shift yo (fC (runKey Element.block (runs Element.block es)[k] % blockcols))
        (((runs Element.block es)[k]).map (locEnt fR fC blockcols)) = shift yo 0 (blkEnts fR blockcols es k) := by
      rw [blkEnts_eq fR blockcols es hk']
      unfold shift
      rw [List.map_map, List.map_map]
      refine List.map_congr_left (fun a ha => ?_)
      have h1 := H.inC a (hm a ha).1
      simp only [Function.comp, locEnt, ← (hm a ha).2, Nat.zero_add]
      rw [Nat.add_sub_cancel' h1.1]
    rw [e2] at this
    exact this
  · intro k hk e he
    have hk' : k < (runs Element.block es).length := by simpa using hk
    have hm := (run_mem Element.block es k hk').1
    rw [runKeys_getElem _ _ _ hk']
    rw [blkEnts_eq fR blockcols es hk'] at he
    obtain ⟨a, ha, rfl⟩ := List.mem_map.1 he
    have := H.inR a (hm a ha).1
    simp only [← (hm a ha).2]
    omega

end csbr
end Gsb
