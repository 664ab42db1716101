import Verif.Model.IoBcsr
import Verif.Props.IoBlocked
import Verif.Props.Tools3
/-
C71: a blocked file read into a Bcsr.
-/
namespace Gsb
variable {T : Type} {cv : Codec T}

section
variable {M : Nat} {offR offC : List Nat} {blockrows blockcols : Nat} {es : List (Element T)}

/-- The `row_ptr` of block `b` after the elements `l`: counts, not accumulated. -/
def bcsrRow (fR : Nat → Nat) (bc b : Nat) (l : List (Element T)) : Buf Nat :=
  Buf.full (fR (b / bc + 1) - fR (b / bc) + 1)
    (fun k => (l.filter (fun e => e.block == b)).countP (fun e => e.row - fR (e.block / bc) + 1 == k))

/-- The blocks' `row_ptr` members after the elements `l`. -/
def bcsrRows (fR : Nat → Nat) (bc g : Nat) (l : List (Element T)) : Buf (Buf Nat) :=
  ⟨g, fun b => if l.any (fun e => e.block == b) then some (bcsrRow fR bc b l) else none⟩

/-- The state of the reader after `i` elements. -/
def bcsrState (fR fC : Nat → Nat) (bc g : Nat) (es : List (Element T)) (i : Nat) : BcsrRead T :=
  ⟨(es.take i).getLast?.map (fun e => (curOf fR fC bc e.block).strip), bcsrRows fR bc g (es.take i),
    ⟨es.length, fun k => ((es.take i)[k]?).map (fun e => e.col - fC (e.block % bc))⟩,
    ⟨es.length, fun k => ((es.take i)[k]?).map (fun e => e.val)⟩⟩

/-- The element part of an iteration, once the block is set up. -/
theorem bcsrElement_ok {fR fC : Nat → Nat} {g : Nat} (H : BlkIn M fR fC blockrows blockcols es)
    (hg : ∀ e ∈ es, e.block < g) (i bi : Nat) (hi : i < es.length) (rps : Buf (Buf Nat)) (hlen : rps.len = g)
    (hat : ∀ b, rps.dat b = if b = es[i].block then some (bcsrRow fR blockcols b (es.take i))
      else (bcsrRows fR blockcols g (es.take i)).dat b) :
    bcsrElementIo M es[i] i bi ⟨some (curOf fR fC blockcols es[i].block).strip, rps,
      (bcsrState fR fC blockcols g es i).colInd, (bcsrState fR fC blockcols g es i).val⟩ =
    .ok (bcsrState fR fC blockcols g es (i + 1)) := by
  have he := List.getElem_mem hi
  have h1 := H.inR _ he
  have h2 := H.inC _ he
  have h3 := H.maxR _ he
  have h4 := H.maxC _ he
  have hM := H.len
  unfold bcsrElementIo
  simp only [needCur, ok_bind]
  rw [assertInBlock_io (assertInBlock_ok fR fC blockcols H he), ok_bind,
    Buf.get_ok (a := bcsrRow fR blockcols es[i].block (es.take i)) (by rw [hlen]; exact hg _ he) (by rw [hat, if_pos rfl]), ok_bind]
  simp only [curOf, Cur.strip]
  rw [subM_eq (by omega) h1.1, subM_eq (by omega) h2.1, addM_eq (by omega)]
  have hfl : ((es.take i).filter (fun e => e.block == es[i].block)).length + 1 < M := by
    have := List.length_filter_le (fun e : Element T => e.block == es[i].block) (es.take i)
    rw [List.length_take] at this
    omega
  have hinc := incr_count (M := M) ((es.take i).filter (fun e => e.block == es[i].block))
    (fun e : Element T => e.row - fR (e.block / blockcols)) es[i]
    (len := fR (es[i].block / blockcols + 1) - fR (es[i].block / blockcols) + 1) (by omega) hfl
  simp only [bcsrRow] at hinc ⊢
  rw [hinc, ok_bind, Buf.put_ok (by rw [hlen]; exact hg _ he), ok_bind]
  simp only [bcsrState]
  rw [fill_put (es.take i) (fun e : Element T => e.col - fC (e.block % blockcols)) es[i] (by simp; omega) hi, ok_bind,
    fill_put (es.take i) (fun e : Element T => e.val) es[i] (by simp; omega) hi, ok_bind, ← take_succ_eq hi,
    getLast?_take hi]
  simp only [Option.map_some, curOf, Cur.strip, Except.ok.injEq, BcsrRead.mk.injEq, true_and, and_true]
  apply Buf.ext'
  · exact hlen
  · intro b
    simp only [bcsrRows, take_succ_eq hi, List.any_append, List.any_cons, List.any_nil, Bool.or_false, bcsrRow,
      List.filter_append]
    by_cases hb : b = es[i].block
    · subst hb
      simp
    · have hb' : (es[i].block == b) = false := by simpa using fun h => hb h.symm
      simp only [hat, if_neg hb, bcsrRows, hb', Bool.or_false, bcsrRow]
      simp [hb']

/-- The reader's loop as a scan over the elements. -/
theorem bcsrScan_ok {fR fC : Nat → Nat} {g : Nat} (H : BlkIn M fR fC blockrows blockcols es)
    (hR : ∀ i, i ≤ blockrows → rd offR i = .ok (fR i)) (hC : ∀ i, i ≤ blockcols → rd offC i = .ok (fC i))
    (hg : ∀ e ∈ es, e.block < g) :
    ∃ fin : Scan (BcsrRead T), fin.st = bcsrState fR fC blockcols g es es.length ∧
    forLoop 0 es.length (⟨M - 1, M - 1, bcsrState fR fC blockcols g es 0⟩ : Scan (BcsrRead T))
      (scanStep M (elemBlock es) (bcsrNewBlockIo M offR offC blockcols)
        (fun i bi s => rd es i >>= fun e => bcsrElementIo M e i bi s)) = .ok fin := by
  have key := forLoop_inv (lo := 0) (hi := es.length) (s := (⟨M - 1, M - 1, bcsrState fR fC blockcols g es 0⟩ : Scan (BcsrRead T)))
    (f := scanStep M (elemBlock es) (bcsrNewBlockIo M offR offC blockcols)
        (fun i bi s => rd es i >>= fun e => bcsrElementIo M e i bi s))
    (fun i s => s.st = bcsrState fR fC blockcols g es i ∧
      ((i = 0 ∧ s.prevB = M - 1) ∨ ∃ h : i - 1 < es.length, 0 < i ∧ s.prevB = (es[i - 1]).block))
    (Nat.zero_le _) ⟨rfl, .inl ⟨rfl, rfl⟩⟩ (by
      rintro i ⟨bi, pb, st⟩ - hi ⟨hst, hpb⟩
      simp only at hst hpb
      subst hst
      have he := List.getElem_mem hi
      have hnew : es[i].block ≠ pb → ∀ e ∈ es.take i, e.block ≠ es[i].block := by
        intro hne e hem heq
        rcases hpb with ⟨h0, -⟩ | ⟨hl, hpos, hp⟩
        · subst h0; simp at hem
        · obtain ⟨k, hk, rfl⟩ := List.getElem_of_mem hem
          rw [List.length_take] at hk
          rw [List.getElem_take] at heq
          have h5 : es[i-1].block ≤ es[i].block := List.pairwise_iff_getElem.1 H.sortedB (i - 1) i hl hi (by omega)
          by_cases hk' : k = i - 1
          · subst hk'; omega
          · have h6 : es[k].block ≤ es[i-1].block := List.pairwise_iff_getElem.1 H.sortedB k (i - 1) (by omega) hl (by omega)
            omega
      unfold scanStep
      rw [elemBlock_ok es i hi, ok_bind]
      by_cases hb : es[i].block ≠ pb
      · rw [if_pos hb]
        simp only
        have h7 := hnew hb
        have hany : (es.take i).any (fun e => e.block == es[i].block) = false := by
          rw [List.any_eq_false]; intro e hem; simpa using h7 e hem
        have hfil : (es.take i).filter (fun e => e.block == es[i].block) = [] := by
          rw [List.filter_eq_nil_iff]; intro e hem; simpa using h7 e hem
        have h3 := H.inR _ he
        have h5 := H.maxR _ he
        unfold bcsrNewBlockIo
        rw [blockCoords_io (blockCoords_ok H hR hC he), ok_bind]
        simp only [bcsrState]
        rw [Buf.put_ok (by exact hg _ he)]
        simp only [ok_bind]
        rw [rd_ok hi, ok_bind]
        have h8 := bcsrElement_ok H hg i (addM M bi 1) hi
          { (bcsrRows fR blockcols g (es.take i)) with dat := fun j => if j = es[i].block then some (Buf.filled (addM M (curOf fR fC blockcols es[i].block).strip.brSize 1) 0) else (bcsrRows fR blockcols g (es.take i)).dat j } rfl (by
            intro b
            by_cases hb' : b = es[i].block
            · subst hb'
              simp only [if_true, bcsrRow, hfil, List.countP_nil, curOf, Cur.strip]
              rw [addM_eq (by omega)]
              rfl
            · simp only [if_neg hb'])
        simp only [bcsrState] at h8
        rw [h8, ok_bind]
        exact ⟨_, rfl, rfl, .inr ⟨by omega, by omega, rfl⟩⟩
      · rw [if_neg hb]
        simp only [ne_eq, Decidable.not_not] at hb
        simp only [ok_bind]
        rw [rd_ok hi, ok_bind]
        rcases hpb with ⟨h0, hp⟩ | ⟨hl, hpos, hp⟩
        · have := H.sent _ he
          omega
        · have hlast : (es.take i).getLast? = some es[i - 1] := by
            have := getLast?_take hl
            rwa [Nat.sub_add_cancel hpos] at this
          have hmem : es[i - 1] ∈ es.take i := List.mem_of_getLast? hlast
          have h8 := bcsrElement_ok H hg i bi hi (bcsrRows fR blockcols g (es.take i)) rfl (by
            intro b
            by_cases hb' : b = es[i].block
            · subst hb'
              have : (es.take i).any (fun e => e.block == es[i].block) = true := by
                rw [List.any_eq_true]; exact ⟨_, hmem, by simp; omega⟩
              simp only [if_true, bcsrRows, this]
            · simp only [if_neg hb'])
          have hcur : (bcsrState fR fC blockcols g es i).cur = some (curOf fR fC blockcols es[i].block).strip := by
            simp only [bcsrState, hlast, Option.map_some]
            rw [← hp, ← hb]
          have hst : bcsrState fR fC blockcols g es i = ⟨some (curOf fR fC blockcols es[i].block).strip,
              bcsrRows fR blockcols g (es.take i), (bcsrState fR fC blockcols g es i).colInd,
              (bcsrState fR fC blockcols g es i).val⟩ := by rw [← hcur]; rfl
          rw [hst, h8, ok_bind]
          exact ⟨_, rfl, rfl, .inr ⟨by omega, by omega, by simp only [Nat.add_sub_cancel]; exact hb.symm⟩⟩)
  obtain ⟨s, h1, h2, -⟩ := key
  exact ⟨s, h2, h1⟩

end

theorem bcsrClearIo_ok (g : Nat) : bcsrClearIo g (Buf.uninit g) = .ok ⟨g, fun i => if i < g then some 0 else none⟩ := by
  unfold bcsrClearIo
  refine forLoop_closed' (fun i => (⟨g, fun k => if k < i then some 0 else none⟩ : Buf Nat)) (Nat.zero_le g) ?_ rfl ?_
  · simp [Buf.uninit]
  · intro i _ hi
    rw [Buf.put_ok (show i < g from hi)]
    congr 2
    funext k
    by_cases h : k = i
    · subst h; simp
    · rw [if_neg h]
      exact if_congr (by omega) rfl rfl

theorem bcsrAccumulateIo_none {M n g : Nat} (hn : n ≤ g) (rps : Buf (Buf Nat)) :
    bcsrAccumulateIo M n ⟨g, fun i => if i < g then some 0 else none⟩ rps = .ok rps := by
  unfold bcsrAccumulateIo
  refine forLoop_closed' (fun _ => rps) (Nat.zero_le n) rfl rfl ?_
  intro i _ hi
  rw [Buf.get_ok (a := 0) (show i < g by omega) (if_pos (by omega)), ok_bind, if_pos rfl]

theorem length_le_of_strict {l : List Nat} {g : Nat} (h : l.Pairwise (· < ·)) (hg : ∀ a ∈ l, a < g) : l.length ≤ g := by
  have hn : l.Nodup := h.imp (fun h => Nat.ne_of_lt h)
  have := (List.subperm_of_subset hn (l₂ := List.range g) (fun a ha => List.mem_range.2 (hg a ha))).length_le
  rwa [List.length_range] at this

/-- **C71.** A blocked file of any matrix and partition, 32-bit indices — the file `Csbr2` reads back exactly (C40) —
read into a `Bcsr`: the reader returns 0, the entries are all in the value and column arrays, and yet every block is left
marked as empty (`rows` is 0), no block is told where its entries start, and the row pointers of the blocks that have
entries hold counts that were never summed.  So `block_nonzeros` is 0 for every block that has entries, and `release`
frees none of the row pointer arrays that were allocated. -/
theorem C71_bcsr_left_empty (hv : cv.Exact (fun _ => True)) (rows columns : Nat) (es : List (Element T))
    (offR : List Nat) (blockrows : Nat) (offC : List Nat) (blockcols : Nat)
    (PR : Partition offR blockrows rows) (PC : Partition offC blockcols columns)
    (hne : es ≠ []) (hlen : es.length < 2 ^ 32) (hgrid : blockrows * blockcols < 2 ^ 32)
    (hrows : rows + 1 < 2 ^ 32) (hcols : columns < 2 ^ 32) (hbr : blockrows ≤ rows) (hbc : blockcols ≤ columns)
    (hin : InRange (ents es) rows columns) (name : String) :
    ∃ A₀ es', cooToCsbr2 (2 ^ 32) es rows columns offR blockrows offC blockcols = .ok (A₀, es') ∧
      ∀ fs : FS, fs name = some (blockFile 4 cv rows columns blockrows blockcols A₀.nnzblocks (es'.map recOf)) →
        ∃ A, readBlockedBcsr 4 cv fs name offR blockrows offC blockcols = .ok (some (0, some A)) ∧
          A.rows = rows ∧ A.columns = columns ∧ A.nnz = es.length ∧ A.nnzblocks = A₀.nnzblocks ∧
          A.val.toList A.nnz = .ok (es'.map (·.val)) ∧
          (∀ i (h : i < es'.length), ∃ lo, offC[es'[i].block % blockcols]? = some lo ∧
            A.colInd.get i = .ok (es'[i].col - lo)) ∧
          (∀ b, b < blockrows * blockcols → A.blkRows.get b = .ok 0) ∧
          (∀ b, b < blockrows * blockcols → A.blkBase.get b = .error .uninit) ∧
          (∀ b, (∃ e ∈ es', e.block = b) → A.blockNonzeros b = .ok 0 ∧
            ∃ lo rp, offR[b / blockcols]? = some lo ∧ A.blkRowPtr.get b = .ok rp ∧
              ∀ r hi, offR[b / blockcols + 1]? = some hi → r < hi - lo →
                rp.get (r + 1) = .ok (es'.countP (fun e => e.block == b && e.row - lo == r))) ∧
          (∀ b, b < blockrows * blockcols → (∀ e ∈ es', e.block ≠ b) → A.blockNonzeros b = .error .uninit) ∧
          A.freedBlocks (2 ^ 32) = .ok [] := by
  have hP := csbr2_main (M := 256 ^ 4) PR PC hne hlen hgrid hrows hcols hbr hbc hin
  have H := prepared_blkIn (M := 256 ^ 4) PR PC hne hlen hgrid hrows hcols hbr (by omega) hin
  have hplen : (prepared offR blockrows offC blockcols es).length = es.length := prepared_length
  refine ⟨_, _, hP, ?_⟩
  intro fs hf
  have hfits : ∀ e ∈ prepared offR blockrows offC blockcols es, Fits (256 ^ 4) e := fun e he => by
      have h1 := H.sent e he
      have h2 := hin _ (mem_prepared he).2
      simp only at h2
      exact ⟨by omega, by show e.row < _; omega, by show e.col < _; omega⟩
  generalize prepared offR blockrows offC blockcols es = es' at H hplen hf hfits ⊢
  have hg : ∀ e ∈ es', e.block < blockrows * blockcols := fun e he => by
    have := H.row e he
    exact (Nat.div_lt_iff_lt_mul H.bcPos).1 this
  have hnbg : (csbr2Of (offF offR) offR offC rows columns blockrows blockcols es').nnzblocks ≤ blockrows * blockcols := by
    show (runs Element.block es').length ≤ _
    have h1 := length_le_of_strict (runKeys_strict H) (g := blockrows * blockcols) (by
      intro a ha
      obtain ⟨k, hk, rfl⟩ := List.getElem_of_mem ha
      have hk' : k < (runs Element.block es').length := by simpa [runKeys] using hk
      obtain ⟨m1, m2, -⟩ := run_mem Element.block es' k hk'
      obtain ⟨e, he⟩ := List.exists_mem_of_ne_nil _ m2
      rw [runKeys_getElem _ _ _ hk', ← (m1 e he).2]
      exact hg e (m1 e he).1)
    simpa [runKeys] using h1
  generalize hnn : (csbr2Of (offF offR) offR offC rows columns blockrows blockcols es').nnzblocks = n at hf hnbg ⊢
  have hl6 : (packed (idx 4) [rows, columns, es'.length, blockrows, blockcols, n]).length = 6 * 4 := by
    rw [packed_length (idx_exact (by decide))]; rfl
  rw [blockFile_eq] at hf
  have hco := readBlockedCommon_ok (w := 4) (by decide) fs name rows columns blockrows blockcols n es'.length offR offC _ hf
    (show rows < 2 ^ 32 by omega) hcols (by rw [hplen]; exact hlen) (show _ < 2 ^ 32 by omega) (show _ < 2 ^ 32 by omega)
    (show n < 2 ^ 32 by omega) (by rw [PR.rd_ok blockrows (Nat.le_refl _), PR.at_last])
    (by rw [PC.rd_ok blockcols (Nat.le_refl _), PC.at_last])
  obtain ⟨fin, hfin, hscan⟩ := bcsrScan_ok (g := blockrows * blockcols) H (fun i hi => PR.rd_ok i hi) (fun i hi => PC.rd_ok i hi) hg
  obtain ⟨s', e1, e2, -⟩ := loop_sim (cv := cv) (φ := id) (nb := bcsrNewBlockIo (256 ^ 4) offR offC blockcols) (nb' := bcsrNewBlockIo (256 ^ 4) offR offC blockcols)
      (el' := bcsrElementIo (256 ^ 4)) (by decide) hv uintMax32 hfits H.sortedB (fun i bi b s s' h => h)
      (fun i bi s s' hi h => by rw [rd_ok hi, ok_bind] at h; exact h) _ fin hscan
      ⟨packed (idx 4) [rows, columns, es'.length, blockrows, blockcols, n] ++ es'.flatMap (recB 4 cv), 6 * 4⟩ []
      es'.length (Nat.le_refl _) (by simp only [In.rest]; rw [List.drop_left' hl6]; simp)
  rw [hscan] at e1
  cases e1
  have e3 : blockedLoop 4 cv (bcsrNewBlockIo (256 ^ 4) offR offC blockcols) (bcsrElementIo (256 ^ 4)) es'.length
        ⟨packed (idx 4) [rows, columns, es'.length, blockrows, blockcols, n] ++ es'.flatMap (recB 4 cv), 6 * 4⟩
        (⟨none, Buf.uninit (blockrows * blockcols), Buf.uninit es'.length, Buf.uninit es'.length⟩ : BcsrRead T) =
        .ok (0, ⟨packed (idx 4) [rows, columns, es'.length, blockrows, blockcols, n] ++ es'.flatMap (recB 4 cv),
          6 * 4 + es'.length * (3 * 4 + cv.size)⟩, ⟨fin.blockIndex, fin.prevB, fin.st⟩) := by
      unfold blockedLoop
      rw [uintMax32]
      exact e2
  have hm : mulM (256 ^ 4) blockrows blockcols = blockrows * blockcols := mulM_eq hgrid
  refine ⟨⟨⟨blockrows * blockcols, fun i => if i < blockrows * blockcols then some 0 else none⟩,
    Buf.uninit (blockrows * blockcols), bcsrRows (offF offR) blockcols (blockrows * blockcols) es', offR, offC, blockrows,
    blockcols, n, rows, columns, es'.length,
    ⟨es'.length, fun k => (es'[k]?).map (fun e => e.col - offF offC (e.block % blockcols))⟩,
    ⟨es'.length, fun k => (es'[k]?).map (fun e => e.val)⟩⟩, ?_, rfl, rfl, hplen, rfl, ?_, ?_, ?_, ?_, ?_, ?_, ?_⟩
  · unfold readBlockedBcsr
    rw [hco, ok_bind]
    simp only [hm]
    rw [bcsrClearIo_ok, ok_bind, e3, ok_bind]
    simp only [ne_eq, not_true_eq_false, if_false]
    rw [bcsrAccumulateIo_none hnbg, ok_bind, hfin]
    simp only [bcsrState, List.take_length]
  · have h2 := toList_ofList (es'.map (·.val)) ⟨es'.length, fun k => (es'[k]?).map (fun e => e.val)⟩ (by simp) (fun i => by simp)
    simpa using h2
  · intro i hi
    have h1 := Nat.mod_lt es'[i].block H.bcPos
    have h2 : es'[i].block % blockcols < offC.length := by rw [PC.len]; omega
    refine ⟨offF offC (es'[i].block % blockcols), ?_, ?_⟩
    · simp [offF, h2]
    · exact Buf.get_ok (by exact hi) (by simp [hi])
  · intro b hb
    exact Buf.get_ok (by exact hb) (if_pos hb)
  · intro b hb
    unfold Buf.get Buf.uninit
    simp [hb]
  · rintro b ⟨e, he, rfl⟩
    have hrow := H.row e he
    have hany : es'.any (fun a => a.block == e.block) = true := by
      rw [List.any_eq_true]; exact ⟨e, he, by simp⟩
    have hget : (bcsrRows (offF offR) blockcols (blockrows * blockcols) es').get e.block =
        .ok (bcsrRow (offF offR) blockcols e.block es') :=
      Buf.get_ok (by exact hg e he) (by simp only [bcsrRows, hany, if_true])
    refine ⟨?_, offF offR (e.block / blockcols), bcsrRow (offF offR) blockcols e.block es', ?_, hget, ?_⟩
    · unfold Bcsr.blockNonzeros
      simp only
      rw [hget, ok_bind, Buf.get_ok (a := 0) (by exact hg e he) (if_pos (hg e he)), ok_bind, bcsrRow, Buf.get_full (by omega)]
      simp
    · have : e.block / blockcols < offR.length := by rw [PR.len]; omega
      simp [offF, this]
    · intro r hi hhi hr
      have hhi' : offF offR (e.block / blockcols + 1) = hi := by simp [offF, hhi]
      rw [bcsrRow, Buf.get_full (by rw [hhi']; omega), List.countP_filter]
      congr 1
      apply List.countP_congr
      intro a _
      simp only [Bool.and_eq_true, beq_iff_eq, Nat.add_right_cancel_iff]
      constructor
      · rintro ⟨h1, h2⟩; rw [h2] at h1; exact ⟨h2, h1⟩
      · rintro ⟨h1, h2⟩; rw [h1]; exact ⟨h2, rfl⟩
  · intro b hb hno
    unfold Bcsr.blockNonzeros
    have : es'.any (fun a => a.block == b) = false := by
      rw [List.any_eq_false]; intro e he; simpa using hno e he
    have h2 : (bcsrRows (offF offR) blockcols (blockrows * blockcols) es').get b = .error .uninit := by
      unfold Buf.get bcsrRows
      simp [hb, this]
    simp only
    rw [h2]
    rfl
  · unfold Bcsr.freedBlocks
    have hm' : mulM (2 ^ 32) blockrows blockcols = blockrows * blockcols := mulM_eq hgrid
    simp only [hm']
    refine forLoop_closed' (fun _ => []) (Nat.zero_le _) rfl rfl ?_
    intro i _ hi
    rw [Buf.get_ok (a := 0) (by exact hi) (if_pos hi), ok_bind]
    rfl

/-- The hypotheses of C71 are met by three entries of a 5 × 4 matrix split 2 + 3 by 1 + 3, with one-byte values. -/
example : ∃ A₀ es', cooToCsbr2 (2 ^ 32) [(⟨4, 3, 5, 0⟩ : Element UInt8), ⟨0, 0, 2, 0⟩, ⟨1, 3, 7, 0⟩] 5 4 [0, 2, 5] 2 [0, 1, 4] 2 =
      .ok (A₀, es') ∧
    ∃ A, readBlockedBcsr 4 byteCodec (FS.set (fun _ => none) "a.block"
        (blockFile 4 byteCodec 5 4 2 2 A₀.nnzblocks (es'.map recOf))) "a.block" [0, 2, 5] 2 [0, 1, 4] 2 = .ok (some (0, some A)) ∧
      A.nnz = 3 ∧ A.freedBlocks (2 ^ 32) = .ok [] := by
  obtain ⟨A₀, es', h1, h2⟩ := C71_bcsr_left_empty (cv := byteCodec) ⟨by decide, fun _ => rfl, fun _ _ => rfl⟩ 5 4
    [(⟨4, 3, 5, 0⟩ : Element UInt8), ⟨0, 0, 2, 0⟩, ⟨1, 3, 7, 0⟩] [0, 2, 5] 2 [0, 1, 4] 2
    ⟨rfl, rfl, rfl, by decide⟩ ⟨rfl, rfl, rfl, by decide⟩ (by decide) (by decide) (by decide) (by decide) (by decide)
    (by decide) (by decide) (by simp [ents, InRange, NZ.toEnt]) "a.block"
  obtain ⟨A, h3, -, -, h4, -, -, -, -, -, -, -, h5⟩ := h2 _ (FS.set_same _ _ _)
  exact ⟨A₀, es', h1, A, h3, h4, h5⟩

end Gsb
