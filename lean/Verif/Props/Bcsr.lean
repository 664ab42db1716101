import Verif.Props.IoBcsr
import Verif.Props.Broken
/-
C13, continued: what `Coo_to_Bcsr` does if the variable it never assigned happens to hold some value.
-/
namespace Gsb
variable {T : Type}

/-! ### Vocabulary -/

/-- Block `b` of the grid has an entry. -/
def Occupied (offR offC : List Nat) (blockcols : Nat) (es : List (Ent T)) (b : Nat) : Prop :=
  ∃ e ∈ es, InBlockRange offR (b / blockcols) e.row ∧ InBlockRange offC (b % blockcols) e.col

/-- The list of elements is the matrix, block after block, each block by rows. -/
structure ByBlocks (offR offC : List Nat) (blockcols : Nat) (es : List (Ent T)) (es' : List (Element T)) : Prop where
  perm : (ents es').Perm es
  inBlock : ∀ e ∈ es', InBlockRange offR (e.block / blockcols) e.row ∧ InBlockRange offC (e.block % blockcols) e.col
  sorted : es'.Pairwise (fun a b => a.block < b.block ∨ a.block = b.block ∧
    (a.row < b.row ∨ a.row = b.row ∧ a.col ≤ b.col))

/-- Block `b` of `A`, whose rows are `[lo, hi)`, is a CSR matrix of its entries: `rows`, the place where its entries start
in the value and column arrays, and the row pointers, which say how many of its entries lie above each row. -/
structure BcsrBlock (A : Bcsr T) (es' : List (Element T)) (b lo hi : Nat) : Prop where
  rows : A.blkRows.get b = .ok (hi - lo)
  start : A.blkBase.get b = .ok (es'.countP (fun e => decide (e.block < b)))
  rowPtr : ∃ rp, A.blkRowPtr.get b = .ok rp ∧
    ∀ r, r ≤ hi - lo → rp.get r = .ok (es'.countP (fun e => e.block == b && decide (e.row < lo + r)))
  nonzeros : A.blockNonzeros b = .ok (es'.countP (fun e => e.block == b))

section
variable {M : Nat} {offR offC : List Nat} {blockrows blockcols : Nat} {es : List (Element T)}

/-- The blocks' `row_ptr` members: one more element counted. -/
theorem bcsrRows_step {fR fC : Nat → Nat} {g : Nat} (H : BlkIn M fR fC blockrows blockcols es)
    (hg : ∀ e ∈ es, e.block < g) (i : Nat) (hi : i < es.length) (rps : Buf (Buf Nat)) (hlen : rps.len = g)
    (hat : ∀ b, rps.dat b = if b = es[i].block then some (bcsrRow fR blockcols b (es.take i))
      else (bcsrRows fR blockcols g (es.take i)).dat b) :
    (do let rp ← rps.get es[i].block
        let rp ← incr M rp (addM M (subM M es[i].row (fR (es[i].block / blockcols))) 1)
        rps.put es[i].block rp) = .ok (bcsrRows fR blockcols g (es.take (i + 1))) := by
  have he := List.getElem_mem hi
  have h1 := H.inR _ he
  have h3 := H.maxR _ he
  have hM := H.len
  rw [Buf.get_ok (a := bcsrRow fR blockcols es[i].block (es.take i)) (by rw [hlen]; exact hg _ he) (by rw [hat, if_pos rfl]), ok_bind]
  rw [subM_eq (by omega) h1.1, addM_eq (by omega)]
  have hfl : ((es.take i).filter (fun e => e.block == es[i].block)).length + 1 < M := by
    have := List.length_filter_le (fun e : Element T => e.block == es[i].block) (es.take i)
    rw [List.length_take] at this
    omega
  have hinc := incr_count (M := M) ((es.take i).filter (fun e => e.block == es[i].block))
    (fun e : Element T => e.row - fR (e.block / blockcols)) es[i]
    (len := fR (es[i].block / blockcols + 1) - fR (es[i].block / blockcols) + 1) (by omega) hfl
  simp only [bcsrRow] at hinc ⊢
  rw [hinc, ok_bind, Buf.put_ok (by rw [hlen]; exact hg _ he)]
  congr 1
  apply Buf.ext'
  · exact hlen
  · intro b
    simp only [bcsrRows, take_succ_eq hi, List.any_append, List.any_cons, List.any_nil, Bool.or_false, bcsrRow,
      List.filter_append]
    by_cases hb : b = es[i].block
    · subst hb
      simp
    · have hb' : (es[i].block == b) = false := by simpa using fun h => hb h.symm
      simp only [hat, if_neg hb, bcsrRows, hb', Bool.or_false, bcsrRow]
      simp [hb']

/-- The matrix under construction after the elements `l`, the loop that clears blocks having cleared block `v`. -/
def bcsrAt (fR fC : Nat → Nat) (offR offC : List Nat) (rows columns br bc n v : Nat) (es l : List (Element T)) : Bcsr T :=
  ⟨⟨br * bc, fun b => if l.any (fun e => e.block == b) then some (fR (b / bc + 1) - fR (b / bc)) else if b = v then some 0 else none⟩,
   ⟨br * bc, fun b => if l.any (fun e => e.block == b) then some (l.countP (fun e => decide (e.block < b))) else none⟩,
   bcsrRows fR bc (br * bc) l, offR, offC, br, bc, n, rows, columns, es.length,
   ⟨es.length, fun k => (l[k]?).map (fun e => e.col - fC (e.block % bc))⟩,
   ⟨es.length, fun k => (l[k]?).map (fun e => e.val)⟩⟩

/-- The copying loop. -/
theorem bcsrFill_ok {fR fC : Nat → Nat} {rows columns n v : Nat} {b0 : Option Nat}
    (H : BlkIn M fR fC blockrows blockcols es)
    (hR : ∀ i, i ≤ blockrows → rd offR i = .ok (fR i)) (hC : ∀ i, i ≤ blockcols → rd offC i = .ok (fC i))
    (hg : ∀ e ∈ es, e.block < blockrows * blockcols) :
    ∃ fin : BcsrFill T, forLoop 0 es.length
        (⟨b0, M - 1, none, bcsrAt fR fC offR offC rows columns blockrows blockcols n v es []⟩ : BcsrFill T) (bcsrStep M es) = .ok fin ∧
      fin.A = bcsrAt fR fC offR offC rows columns blockrows blockcols n v es es := by
  have key := forLoop_inv (lo := 0) (hi := es.length)
    (s := (⟨b0, M - 1, none, bcsrAt fR fC offR offC rows columns blockrows blockcols n v es []⟩ : BcsrFill T))
    (f := bcsrStep M es)
    (fun i s => s.A = bcsrAt fR fC offR offC rows columns blockrows blockcols n v es (es.take i) ∧
      ((i = 0 ∧ s.prevB = M - 1) ∨ ∃ h : i - 1 < es.length, 0 < i ∧ s.prevB = (es[i - 1]).block ∧
        s.cur = some (curOf fR fC blockcols (es[i - 1]).block)))
    (Nat.zero_le _) ⟨rfl, .inl ⟨rfl, rfl⟩⟩ (by
      rintro i ⟨sb, pb, cur, A⟩ - hi ⟨hA, hpb⟩
      simp only at hA hpb
      subst hA
      have he := List.getElem_mem hi
      have h3 := H.inR _ he
      have h4 := H.inC _ he
      have h5 := H.maxR _ he
      have h6 := H.maxC _ he
      have hnew : es[i].block ≠ pb → ∀ e ∈ es.take i, e.block < es[i].block := by
        intro hne e hem
        rcases hpb with ⟨h0, -⟩ | ⟨hl, hpos, hp, -⟩
        · subst h0; simp at hem
        · obtain ⟨k, hk, rfl⟩ := List.getElem_of_mem hem
          rw [List.length_take] at hk
          rw [List.getElem_take]
          have h5 : es[i-1].block ≤ es[i].block := List.pairwise_iff_getElem.1 H.sortedB (i - 1) i hl hi (by omega)
          by_cases hk' : k = i - 1
          · subst hk'; omega
          · have h6 : es[k].block ≤ es[i-1].block := List.pairwise_iff_getElem.1 H.sortedB k (i - 1) (by omega) hl (by omega)
            omega
      -- the state after the block is set up
      have hput : ∀ (s : BcsrFill T) (hs : s = ⟨some es[i].block, es[i].block, some (curOf fR fC blockcols es[i].block),
          { bcsrAt fR fC offR offC rows columns blockrows blockcols n v es (es.take i) with
            blkRows := (bcsrAt fR fC offR offC rows columns blockrows blockcols n v es (es.take (i + 1))).blkRows
            blkBase := (bcsrAt fR fC offR offC rows columns blockrows blockcols n v es (es.take (i + 1))).blkBase
            blkRowPtr := s.A.blkRowPtr }⟩) (hlen : s.A.blkRowPtr.len = blockrows * blockcols)
          (hat : ∀ b, s.A.blkRowPtr.dat b = if b = es[i].block then some (bcsrRow fR blockcols b (es.take i))
            else (bcsrRows fR blockcols (blockrows * blockcols) (es.take i)).dat b),
          (do let c ← needCur s.cur
              assertInBlock M c es[i].row es[i].col
              let rp ← s.A.blkRowPtr.get es[i].block
              let rp ← incr M rp (addM M (subM M es[i].row c.brOff) 1)
              let rps ← s.A.blkRowPtr.put es[i].block rp
              let ci ← s.A.colInd.put i (subM M es[i].col c.bcOff)
              let v ← s.A.val.put i es[i].val
              .ok ({ s with A := { s.A with blkRowPtr := rps, colInd := ci, val := v } } : BcsrFill T)) =
            .ok ⟨some es[i].block, es[i].block, some (curOf fR fC blockcols es[i].block),
              bcsrAt fR fC offR offC rows columns blockrows blockcols n v es (es.take (i + 1))⟩ := by
        intro s hs hlen hat
        have hrow := bcsrRows_step H hg i hi s.A.blkRowPtr hlen hat
        generalize hrp : s.A.blkRowPtr = rps at hs hrow hlen hat ⊢
        subst hs
        simp only [needCur, ok_bind]
        rw [assertInBlock_ok fR fC blockcols H he, ok_bind]
        obtain ⟨rp, e1, hrow⟩ := bind_ok hrow
        obtain ⟨rp', e2, e3⟩ := bind_ok hrow
        simp only [curOf]
        rw [e1, ok_bind, e2, ok_bind, e3, ok_bind, subM_eq (by omega) h4.1]
        simp only [bcsrAt]
        rw [fill_put (es.take i) (fun e : Element T => e.col - fC (e.block % blockcols)) es[i] (by simp; omega) hi, ok_bind,
          fill_put (es.take i) (fun e : Element T => e.val) es[i] (by simp; omega) hi, ok_bind, ← take_succ_eq hi]
      refine ⟨⟨some es[i].block, es[i].block, some (curOf fR fC blockcols es[i].block),
              bcsrAt fR fC offR offC rows columns blockrows blockcols n v es (es.take (i + 1))⟩, ?_, ?_⟩
      · unfold bcsrStep
        rw [rd_ok hi, ok_bind]
        simp only
        by_cases hb : es[i].block ≠ pb
        · rw [if_pos hb]
          have h7 := hnew hb
          have hany : (es.take i).any (fun e => e.block == es[i].block) = false := by
            rw [List.any_eq_false]; intro e hem; have := h7 e hem; simp; omega
          have hfil : (es.take i).filter (fun e => e.block == es[i].block) = [] := by
            rw [List.filter_eq_nil_iff]; intro e hem; have := h7 e hem; simp; omega
          have hcnt : (es.take i).countP (fun e => decide (e.block < es[i].block)) = i := by
            have : (es.take i).countP (fun e => decide (e.block < es[i].block)) = (es.take i).length := by
              rw [List.countP_eq_length]; intro e hem; simpa using h7 e hem
            rw [this, List.length_take]; omega
          have hbc : blockCoords M (bcsrAt fR fC offR offC rows columns blockrows blockcols n v es (es.take i)).offR
              (bcsrAt fR fC offR offC rows columns blockrows blockcols n v es (es.take i)).offC
              (bcsrAt fR fC offR offC rows columns blockrows blockcols n v es (es.take i)).blockcols es[i].block =
              .ok (es[i].block / blockcols, es[i].block % blockcols, curOf fR fC blockcols es[i].block) := blockCoords_ok H hR hC he
          rw [hbc, ok_bind, Buf.put_ok (by exact hg _ he), ok_bind, Buf.put_ok (by exact hg _ he), ok_bind,
            Buf.put_ok (by exact hg _ he), ok_bind, ok_bind]
          refine hput _ ?_ ?_ ?_
          · simp only [BcsrFill.mk.injEq, true_and, bcsrAt, Bcsr.mk.injEq, and_true]
            refine ⟨?_, ?_⟩
            · apply Buf.ext'
              · rfl
              · intro b
                simp only [take_succ_eq hi, List.any_append, List.any_cons, List.any_nil, Bool.or_false]
                by_cases hb' : b = es[i].block
                · subst hb'; simp [curOf]
                · have hb2 : (es[i].block == b) = false := by simpa using fun h => hb' h.symm
                  simp [hb', hb2]
            · apply Buf.ext'
              · rfl
              · intro b
                simp only [take_succ_eq hi, List.any_append, List.any_cons, List.any_nil, Bool.or_false, List.countP_append,
                  List.countP_singleton]
                by_cases hb' : b = es[i].block
                · subst hb'; simp [hcnt]
                · have hb2 : (es[i].block == b) = false := by simpa using fun h => hb' h.symm
                  simp only [if_neg hb', hb2, Bool.or_false]
                  by_cases ha : (es.take i).any (fun e => e.block == b) = true
                  · obtain ⟨e, hem, hee⟩ := List.any_eq_true.1 ha
                    have := h7 e hem
                    have h9 : e.block = b := by simpa using hee
                    have h10 : ¬ es[i].block < b := by omega
                    simp [h10]
                  · simp [ha]
          · rfl
          · intro b
            by_cases hb' : b = es[i].block
            · subst hb'
              simp only [if_true, bcsrRow, hfil, List.countP_nil, curOf]
              rw [addM_eq (by omega)]
              rfl
            · simp only [if_neg hb']; rfl
        · rw [if_neg hb]
          simp only [ne_eq, Decidable.not_not] at hb
          rcases hpb with ⟨h0, hp⟩ | ⟨hl, hpos, hp, hcur⟩
          · have := H.sent _ he
            omega
          · have hlast : (es.take i).getLast? = some es[i - 1] := by
              have := getLast?_take hl
              rwa [Nat.sub_add_cancel hpos] at this
            have hmem : es[i - 1] ∈ es.take i := List.mem_of_getLast? hlast
            have hsame : es[i - 1].block = es[i].block := by omega
            have hany : (es.take i).any (fun e => e.block == es[i].block) = true := by
              rw [List.any_eq_true]; exact ⟨_, hmem, by simp [hsame]⟩
            subst hcur
            simp only [ok_bind]
            refine hput ⟨some es[i].block, pb, some (curOf fR fC blockcols es[i - 1].block),
              bcsrAt fR fC offR offC rows columns blockrows blockcols n v es (es.take i)⟩ ?_ ?_ ?_
            · rw [hsame]
              simp only [BcsrFill.mk.injEq, true_and, hb, bcsrAt, Bcsr.mk.injEq, and_true]
              refine ⟨?_, ?_⟩
              · apply Buf.ext'
                · rfl
                · intro b
                  simp only [take_succ_eq hi, List.any_append, List.any_cons, List.any_nil, Bool.or_false]
                  by_cases hb' : b = pb
                  · subst hb'; rw [← hb, hany]; simp
                  · have hb2 : (es[i].block == b) = false := by rw [hb]; simpa using fun h => hb' h.symm
                    simp [hb2]
              · apply Buf.ext'
                · rfl
                · intro b
                  simp only [take_succ_eq hi, List.any_append, List.any_cons, List.any_nil, Bool.or_false, List.countP_append,
                    List.countP_singleton]
                  by_cases ha : (es.take i).any (fun e => e.block == b) = true
                  · obtain ⟨e, hem, hee⟩ := List.any_eq_true.1 ha
                    have h9 : e.block = b := by simpa using hee
                    have h11 : e.block ≤ es[i].block := by
                      obtain ⟨k, hk, rfl⟩ := List.getElem_of_mem hem
                      rw [List.length_take] at hk
                      rw [List.getElem_take]
                      exact List.pairwise_iff_getElem.1 H.sortedB k i (by omega) hi (by omega)
                    have h10 : ¬ es[i].block < b := by omega
                    simp [ha, h10]
                  · have hb2 : (es[i].block == b) = false := by
                      rw [Bool.eq_false_iff]
                      intro h
                      have : es[i].block = b := by simpa using h
                      rw [← this] at ha
                      exact ha hany
                    simp [ha, hb2]
            · rfl
            · intro b
              by_cases hb' : b = es[i].block
              · subst hb'
                simp only [if_true]
                show (bcsrRows fR blockcols (blockrows * blockcols) (es.take i)).dat _ = _
                simp only [bcsrRows, hany, if_true]
              · rw [if_neg hb']; rfl
      · exact ⟨rfl, .inr ⟨by omega, by omega, rfl, rfl⟩⟩)
  obtain ⟨fin, e1, e2, -⟩ := key
  exact ⟨fin, e1, by rw [e2, List.take_length]⟩

/-- The accumulated `row_ptr` of block `b`. -/
def bcsrAcc (fR : Nat → Nat) (bc b : Nat) (l : List (Element T)) : Buf Nat :=
  Buf.full (fR (b / bc + 1) - fR (b / bc) + 1) (fun k => if k ≤ fR (b / bc + 1) - fR (b / bc) then
    (l.filter (fun e => e.block == b)).countP (fun e => decide (e.row - fR (e.block / bc) < k)) else
    (l.filter (fun e => e.block == b)).countP (fun e => e.row - fR (e.block / bc) + 1 == k))

/-- The blocks' `row_ptr` members when the first `n` blocks are accumulated. -/
def bcsrAccs (fR : Nat → Nat) (bc g n : Nat) (l : List (Element T)) : Buf (Buf Nat) :=
  ⟨g, fun b => if l.any (fun e => e.block == b) then some (if b < n then bcsrAcc fR bc b l else bcsrRow fR bc b l) else none⟩

theorem bcsrAccs_zero (fR : Nat → Nat) (bc g : Nat) (l : List (Element T)) : bcsrAccs fR bc g 0 l = bcsrRows fR bc g l := by
  simp [bcsrAccs, bcsrRows]

/-- The `rows` members after the copying loop. -/
def bcsrHeights (fR : Nat → Nat) (bc g v : Nat) (l : List (Element T)) : Buf Nat :=
  ⟨g, fun b => if l.any (fun e => e.block == b) then some (fR (b / bc + 1) - fR (b / bc)) else if b = v then some 0 else none⟩

/-- The accumulation loop on the blocks below `m`, which all have an entry or are block `v`. -/
theorem bcsrAcc_part {fR fC : Nat → Nat} {g m v : Nat} (H : BlkIn M fR fC blockrows blockcols es) (hm : m ≤ g)
    (hocc : ∀ b, b < m → es.any (fun e => e.block == b) = true ∨ b = v) :
    bcsrAccumulateIo M m (bcsrHeights fR blockcols g v es) (bcsrRows fR blockcols g es) = .ok (bcsrAccs fR blockcols g m es) := by
  unfold bcsrAccumulateIo
  refine forLoop_closed' (fun i => bcsrAccs fR blockcols g i es) (Nat.zero_le m) (bcsrAccs_zero ..).symm rfl ?_
  intro b _ hb
  by_cases ha : es.any (fun e => e.block == b) = true
  · obtain ⟨e, he, heb⟩ := List.any_eq_true.1 ha
    have heb' : e.block = b := by simpa using heb
    subst heb'
    have h1 := H.inR e he
    have hfl : (es.filter (fun a => a.block == e.block)).length < M :=
      Nat.lt_of_le_of_lt (List.length_filter_le _ _) H.len
    have hps := prefixSum_count (M := M) (len := fR (e.block / blockcols + 1) - fR (e.block / blockcols) + 1)
      (es.filter (fun a => a.block == e.block)) (fun a : Element T => a.row - fR (a.block / blockcols)) rfl hfl
    rw [Buf.get_ok (a := fR (e.block / blockcols + 1) - fR (e.block / blockcols)) (show _ < g by omega)
      (by simp only [bcsrHeights, ha, if_true]), ok_bind, if_neg (by omega),
      Buf.get_ok (a := bcsrRow fR blockcols e.block es) (show _ < g by omega)
      (by simp only [bcsrAccs, ha, if_true, Nat.lt_irrefl, if_false]), ok_bind]
    unfold bcsrRow
    rw [hps, ok_bind, Buf.put_ok (show _ < g by omega)]
    congr 1
    apply Buf.ext'
    · rfl
    · intro k
      simp only [bcsrAccs]
      by_cases hk : k = e.block
      · subst hk
        simp only [if_true, ha, Nat.lt_succ_self]
        rfl
      · have : (k < e.block + 1) = (k < e.block) := by rw [eq_iff_iff]; omega
        simp only [if_neg hk, this]
  · have hbv : b = v := (hocc b hb).resolve_left ha
    rw [Buf.get_ok (a := 0) (show _ < g by omega) (by simp only [bcsrHeights]; rw [if_neg ha, if_pos hbv]), ok_bind, if_pos rfl]
    congr 1
    apply Buf.ext'
    · rfl
    · intro k
      simp only [bcsrAccs]
      by_cases hk : k = b
      · subst hk; simp [ha]
      · have : (k < b + 1) = (k < b) := by rw [eq_iff_iff]; omega
        simp only [this]

/-- The accumulation loop reads the `rows` of a block nobody wrote. -/
theorem bcsrAcc_fail {fR fC : Nat → Nat} {g n v b : Nat} (H : BlkIn M fR fC blockrows blockcols es) (hn : n ≤ g) (hb : b < n)
    (hv : b ≠ v) (ha : es.any (fun e => e.block == b) = false) :
    bcsrAccumulateIo M n (bcsrHeights fR blockcols g v es) (bcsrRows fR blockcols g es) = .error .uninit := by
  induction b using Nat.strong_induction_on with
  | _ b ih =>
    by_cases hlow : ∃ c, c < b ∧ c ≠ v ∧ es.any (fun e => e.block == c) = false
    · obtain ⟨c, hc, hcv, hca⟩ := hlow
      exact ih c hc (by omega) hcv hca
    · have hall : ∀ c, c < b → es.any (fun e => e.block == c) = true ∨ c = v := by
        intro c hc
        by_cases h : c = v
        · exact .inr h
        · refine .inl ?_
          by_contra h2
          exact hlow ⟨c, hc, h, by simpa using h2⟩
      have h1 := bcsrAcc_part (g := g) (v := v) H (by omega) hall
      unfold bcsrAccumulateIo at h1 ⊢
      rw [forLoop_split (mid := b) (Nat.zero_le _) (by omega), h1, ok_bind, forLoop_step hb]
      have : (bcsrHeights fR blockcols g v es).get b = .error .uninit := by
        have hg : b < g := by omega
        unfold Buf.get bcsrHeights
        simp [hg, ha, hv]
      rw [this]
      rfl

/-- The number of blocks that have entries. -/
theorem runs_all {fR fC : Nat → Nat} {g : Nat} (H : BlkIn M fR fC blockrows blockcols es) (hg : ∀ e ∈ es, e.block < g) (v : Nat)
    (hv : v < g) (hall : ∀ b, b < g → b ≠ v → es.any (fun e => e.block == b) = true) :
    (runs Element.block es).length = if es.any (fun e => e.block == v) then g else g - 1 := by
  have hnd : (runKeys Element.block es).Nodup := (runKeys_strict H).imp (fun h => Nat.ne_of_lt h)
  have hmem : ∀ b, b ∈ runKeys Element.block es ↔ es.any (fun e => e.block == b) = true := by
    intro b
    constructor
    · intro hb
      obtain ⟨k, hk, rfl⟩ := List.getElem_of_mem hb
      have hk' : k < (runs Element.block es).length := by simpa [runKeys] using hk
      obtain ⟨m1, m2, -⟩ := run_mem Element.block es k hk'
      obtain ⟨e, he⟩ := List.exists_mem_of_ne_nil _ m2
      rw [runKeys_getElem _ _ _ hk', List.any_eq_true]
      exact ⟨e, (m1 e he).1, by simp [(m1 e he).2]⟩
    · intro hb
      obtain ⟨e, he, heb⟩ := List.any_eq_true.1 hb
      have heb' : e.block = b := by simpa using heb
      subst heb'
      have hfl := (runsOK Element.block es).flat
      rw [← hfl] at he
      obtain ⟨r, hr, her⟩ := List.mem_flatten.1 he
      rw [(runsOK Element.block es).same r hr e her]
      exact List.mem_map_of_mem hr
  have hlt : ∀ b, b ∈ runKeys Element.block es → b < g := by
    intro b hb
    obtain ⟨e, he, heb⟩ := List.any_eq_true.1 ((hmem b).1 hb)
    have heb' : e.block = b := by simpa using heb
    exact heb' ▸ hg e he
  rw [← runKeys_length]
  by_cases hov : es.any (fun e => e.block == v) = true
  · rw [if_pos hov]
    have hp : (runKeys Element.block es).Perm (List.range g) := by
      rw [List.perm_ext_iff_of_nodup hnd List.nodup_range]
      intro b
      rw [List.mem_range]
      refine ⟨hlt b, fun hb => (hmem b).2 ?_⟩
      by_cases hbv : b = v
      · rw [hbv]; exact hov
      · exact hall b hb hbv
    rw [hp.length_eq, List.length_range]
  · rw [if_neg hov]
    have hp : (runKeys Element.block es).Perm ((List.range g).erase v) := by
      rw [List.perm_ext_iff_of_nodup hnd (List.nodup_range.erase v)]
      intro b
      rw [List.nodup_range.mem_erase_iff, List.mem_range]
      constructor
      · intro hb
        refine ⟨?_, hlt b hb⟩
        rintro rfl
        exact hov ((hmem b).1 hb)
      · rintro ⟨h1, h2⟩
        exact (hmem b).2 (hall b h2 h1)
    rw [hp.length_eq, List.length_erase_of_mem (List.mem_range.2 hv), List.length_range]

theorem runs_le_grid {fR fC : Nat → Nat} {g : Nat} (H : BlkIn M fR fC blockrows blockcols es) (hg : ∀ e ∈ es, e.block < g) :
    (runs Element.block es).length ≤ g := by
  have h1 := length_le_of_strict (runKeys_strict H) (g := g) (by
    intro a ha
    obtain ⟨k, hk, rfl⟩ := List.getElem_of_mem ha
    have hk' : k < (runs Element.block es).length := by simpa [runKeys] using hk
    obtain ⟨m1, m2, -⟩ := run_mem Element.block es k hk'
    obtain ⟨e, he⟩ := List.exists_mem_of_ne_nil _ m2
    rw [runKeys_getElem _ _ _ hk', ← (m1 e he).2]
    exact hg e (m1 e he).1)
  simpa [runKeys] using h1

theorem bcsrClear_some {v : Nat} (hgrid : blockrows * blockcols < M) (hv : v < blockrows * blockcols) :
    bcsrClear M blockrows blockcols (some v) (Buf.uninit (blockrows * blockcols)) =
      .ok ⟨blockrows * blockcols, fun b => if b = v then some 0 else none⟩ := by
  unfold bcsrClear
  rw [mulM_eq hgrid]
  refine forLoop_closed' (fun i => (⟨blockrows * blockcols, fun b => if 0 < i ∧ b = v then some 0 else none⟩ : Buf Nat))
    (Nat.zero_le _) (by simp [Buf.uninit]) (by simp [show 0 < blockrows * blockcols by omega]) ?_
  intro i _ hi
  simp only [needVar, ok_bind]
  rw [Buf.put_ok (by exact hv)]
  congr 2
  funext b
  by_cases h : b = v <;> simp [h]

theorem bcsrClear_out {v : Nat} (hgrid : blockrows * blockcols < M) (hpos : 0 < blockrows * blockcols) (hv : blockrows * blockcols ≤ v) :
    bcsrClear M blockrows blockcols (some v) (Buf.uninit (blockrows * blockcols)) = .error .oob := by
  unfold bcsrClear
  rw [mulM_eq hgrid, forLoop_step hpos]
  simp only [needVar, ok_bind]
  have : (Buf.uninit (blockrows * blockcols) : Buf Nat).put v 0 = .error .oob := by
    unfold Buf.put Buf.uninit
    simp [Nat.not_lt.2 hv]
  rw [this]
  rfl

variable {rows columns : Nat}

/-- An element of the sorted list and the place of its entry. -/
theorem prepared_at (PR : Partition offR blockrows rows) (PC : Partition offC blockcols columns) (hin : InRange (ents es) rows columns)
    {e : Element T} (he : e ∈ prepared offR blockrows offC blockcols es) :
    e.block < blockrows * blockcols ∧ InBlockRange offR (e.block / blockcols) e.row ∧ InBlockRange offC (e.block % blockcols) e.col := by
  obtain ⟨h1, h2⟩ := mem_prepared he
  have h := hin _ h2
  have hr' : e.row < rows := h.1
  have hc' : e.col < columns := h.2
  have b1 := PR.bidx_lt hr'
  have b2 := PC.bidx_lt hc'
  have hb : e.block = bidx offR blockrows e.row * blockcols + bidx offC blockcols e.col := h1
  rw [hb, key_div b2, key_mod b2]
  exact ⟨key_lt b1 b2, ⟨_, _, PR.get_off (by omega), PR.get_off (by omega), PR.bidx_lo hr', PR.bidx_hi hr'⟩,
    ⟨_, _, PC.get_off (by omega), PC.get_off (by omega), PC.bidx_lo hc', PC.bidx_hi hc'⟩⟩

theorem inBlock_unique {off : List Nat} {n total : Nat} (P : Partition off n total) {b c i : Nat} (hb : InBlockRange off b i)
    (hc : InBlockRange off c i) : b = c := by
  obtain ⟨lo, hi, e1, e2, h1, h2⟩ := hb
  obtain ⟨lo', hi', e3, e4, h3, h4⟩ := hc
  have hs := List.pairwise_iff_getElem.1 P.sorted
  obtain ⟨l1, e1⟩ := List.getElem?_eq_some_iff.1 e1
  obtain ⟨l2, e2⟩ := List.getElem?_eq_some_iff.1 e2
  obtain ⟨l3, e3⟩ := List.getElem?_eq_some_iff.1 e3
  obtain ⟨l4, e4⟩ := List.getElem?_eq_some_iff.1 e4
  by_contra hne
  rcases Nat.lt_or_gt_of_ne hne with h | h
  · by_cases h5 : b + 1 = c
    · subst h5; omega
    · have := hs (b + 1) c l2 l3 (by omega); omega
  · by_cases h5 : c + 1 = b
    · subst h5; omega
    · have := hs (c + 1) b l4 l1 (by omega); omega

/-- A block has an entry iff the sorted list has an element with its number. -/
theorem occupied_iff (PR : Partition offR blockrows rows) (PC : Partition offC blockcols columns) (hin : InRange (ents es) rows columns)
    (b : Nat) : Occupied offR offC blockcols (ents es) b ↔ (prepared offR blockrows offC blockcols es).any (fun e => e.block == b) = true := by
  constructor
  · rintro ⟨e, he, h1, h2⟩
    have hp : e ∈ ents (prepared offR blockrows offC blockcols es) := ents_prepared_perm.mem_iff.2 he
    obtain ⟨a, ha, rfl⟩ := List.mem_map.1 hp
    obtain ⟨-, h3, h4⟩ := prepared_at PR PC hin ha
    rw [List.any_eq_true]
    refine ⟨a, ha, ?_⟩
    have e1 := inBlock_unique PR h1 h3
    have e2 := inBlock_unique PC h2 h4
    have : b = a.block := by
      rw [← Nat.div_add_mod b blockcols, ← Nat.div_add_mod a.block blockcols, e1, e2]
    simp [this]
  · intro h
    obtain ⟨a, ha, hb⟩ := List.any_eq_true.1 h
    have hb' : a.block = b := by simpa using hb
    subst hb'
    obtain ⟨-, h3, h4⟩ := prepared_at PR PC hin ha
    exact ⟨_, (mem_prepared ha).2, h3, h4⟩

theorem byBlocks_prepared (PR : Partition offR blockrows rows) (PC : Partition offC blockcols columns) (hin : InRange (ents es) rows columns) :
    ByBlocks offR offC blockcols (ents es) (prepared offR blockrows offC blockcols es) :=
  ⟨ents_prepared_perm, fun _ he => (prepared_at PR PC hin he).2, sortBlocks_sorted _⟩

/-- What is left of the constructor when its first steps are done. -/
theorem cooToBcsr_tail {v : Nat} (PR : Partition offR blockrows rows) (PC : Partition offC blockcols columns)
    (hne : es ≠ []) (hlen : es.length < M) (hgrid : blockrows * blockcols < M)
    (hrows : rows + 1 < M) (hcols : columns < M) (hbr : blockrows ≤ rows) (hbc : blockcols ≤ columns)
    (hin : InRange (ents es) rows columns) (hv : v < blockrows * blockcols) :
    cooToBcsr M (some v) es rows columns offR blockrows offC blockcols =
      (bcsrAccumulateIo M (runs Element.block (prepared offR blockrows offC blockcols es)).length
        (bcsrHeights (offF offR) blockcols (blockrows * blockcols) v (prepared offR blockrows offC blockcols es))
        (bcsrRows (offF offR) blockcols (blockrows * blockcols) (prepared offR blockrows offC blockcols es)) >>= fun rps =>
        .ok ({ bcsrAt (offF offR) (offF offC) offR offC rows columns blockrows blockcols
          (runs Element.block (prepared offR blockrows offC blockcols es)).length v (prepared offR blockrows offC blockcols es)
          (prepared offR blockrows offC blockcols es) with blkRowPtr := rps }, prepared offR blockrows offC blockcols es)) := by
  have H := prepared_blkIn (M := M) PR PC hne hlen hgrid hrows hcols hbr (by omega) hin
  unfold cooToBcsr
  rw [calculateBlockId_spec PR PC (by omega) (by omega) (by omega) hin, ok_bind]
  have hn := countBlocks_spec M (prepared offR blockrows offC blockcols es) H.ne H.len H.sortedB
  have hg : ∀ e ∈ prepared offR blockrows offC blockcols es, e.block < blockrows * blockcols := fun e he => (prepared_at PR PC hin he).1
  have hfold : sortElementsBlocks (es.map (withKey (blockKey offR blockrows offC blockcols))) = prepared offR blockrows offC blockcols es := rfl
  simp only
  rw [hfold]
  rw [hn, ok_bind, checkPartition_ok hbr hbc (fun i hi => PR.rd_ok i hi) (fun i hi => PC.rd_ok i hi) PR.at_last PC.at_last, ok_bind,
    mulM_eq hgrid, bcsrClear_some hgrid hv, ok_bind]
  obtain ⟨fin, e1, e2⟩ := bcsrFill_ok (rows := rows) (columns := columns)
    (n := (runs Element.block (prepared offR blockrows offC blockcols es)).length) (v := v) (b0 := some v) H
    (fun i hi => PR.rd_ok i hi) (fun i hi => PC.rd_ok i hi) hg
  have e3 : bcsrAt (offF offR) (offF offC) offR offC rows columns blockrows blockcols
      (runs Element.block (prepared offR blockrows offC blockcols es)).length v (prepared offR blockrows offC blockcols es) [] =
      ⟨⟨blockrows * blockcols, fun b => if b = v then some 0 else none⟩, Buf.uninit (blockrows * blockcols), Buf.uninit (blockrows * blockcols),
        offR, offC, blockrows, blockcols, (runs Element.block (prepared offR blockrows offC blockcols es)).length, rows, columns,
        (prepared offR blockrows offC blockcols es).length, Buf.uninit (prepared offR blockrows offC blockcols es).length,
        Buf.uninit (prepared offR blockrows offC blockcols es).length⟩ := by
    simp [bcsrAt, bcsrRows, Buf.uninit]
  rw [e3] at e1
  rw [e1, ok_bind, e2]
  rfl

/-- The loop of `release` on the blocks below `m`, which all have an entry or are block `v`. -/
theorem freed_part {fR fC : Nat → Nat} {g m n v : Nat} (H : BlkIn M fR fC blockrows blockcols es) (hg : ∀ e ∈ es, e.block < g)
    (hm : m ≤ g) (hocc : ∀ b, b < m → es.any (fun e => e.block == b) = true ∨ b = v) :
    (forLoop 0 m ([] : List Nat) fun i l => do
      let r ← (bcsrHeights fR blockcols g v es).get i
      if r > 0 then do
        let _ ← (bcsrAccs fR blockcols g n es).get i
        .ok (l ++ [i])
      else .ok l) = .ok ((List.range m).filter (fun c => es.any (fun e => e.block == c))) := by
  refine forLoop_closed' (fun i => (List.range i).filter (fun c => es.any (fun e => e.block == c))) (Nat.zero_le m) rfl rfl ?_
  intro c _ hc
  by_cases ha : es.any (fun e => e.block == c) = true
  · obtain ⟨e, he, heb⟩ := List.any_eq_true.1 ha
    have heb' : e.block = c := by simpa using heb
    subst heb'
    have h1 := H.inR e he
    rw [Buf.get_ok (a := fR (e.block / blockcols + 1) - fR (e.block / blockcols)) (by exact hg e he)
      (by simp only [bcsrHeights, ha, if_true]), ok_bind, if_pos (by omega),
      Buf.get_ok (a := (if e.block < n then bcsrAcc fR blockcols e.block es
        else bcsrRow fR blockcols e.block es)) (by exact hg e he) (by simp only [bcsrAccs, ha, if_true]), ok_bind]
    rw [List.range_succ, List.filter_append]
    simp [ha]
  · have hcv := (hocc c hc).resolve_left ha
    rw [Buf.get_ok (a := 0) (show c < g by omega) (by simp only [bcsrHeights]; rw [if_neg ha, if_pos hcv]), ok_bind, if_neg (by omega)]
    rw [List.range_succ, List.filter_append]
    simp [ha]

/-- A block whose row pointers are accumulated. -/
theorem bcsrBlock_ok {fR fC : Nat → Nat} {n n' v b : Nat} (H : BlkIn M fR fC blockrows blockcols es)
    (hg : ∀ e ∈ es, e.block < blockrows * blockcols) (ha : es.any (fun e => e.block == b) = true) (hb : b < n) :
    BcsrBlock { bcsrAt fR fC offR offC rows columns blockrows blockcols n' v es es with
      blkRowPtr := bcsrAccs fR blockcols (blockrows * blockcols) n es } es b (fR (b / blockcols)) (fR (b / blockcols + 1)) := by
  obtain ⟨e, he, heb⟩ := List.any_eq_true.1 ha
  have heb' : e.block = b := by simpa using heb
  subst heb'
  have hbg := hg e he
  have h1 : (bcsrAccs fR blockcols (blockrows * blockcols) n es).get e.block = .ok (bcsrAcc fR blockcols e.block es) :=
    Buf.get_ok hbg (by simp only [bcsrAccs, ha, if_true, if_pos hb])
  have h2 : ∀ r, r ≤ fR (e.block / blockcols + 1) - fR (e.block / blockcols) →
      (bcsrAcc fR blockcols e.block es).get r =
        .ok (es.countP (fun a => a.block == e.block && decide (a.row < fR (e.block / blockcols) + r))) := by
    intro r hr
    unfold bcsrAcc
    rw [Buf.get_full (by omega), if_pos hr, List.countP_filter]
    congr 1
    apply List.countP_congr
    intro a hae
    have h3 := H.inR a hae
    simp only [Bool.and_eq_true, beq_iff_eq, decide_eq_true_eq]
    constructor
    · rintro ⟨h4, h5⟩; rw [h5] at h4 h3; exact ⟨h5, by omega⟩
    · rintro ⟨h4, h5⟩; rw [h4] at h3 ⊢; exact ⟨by omega, rfl⟩
  have h3 : (bcsrAt fR fC offR offC rows columns blockrows blockcols n' v es es).blkRows.get e.block =
      .ok (fR (e.block / blockcols + 1) - fR (e.block / blockcols)) :=
    Buf.get_ok (by exact hbg) (by simp only [bcsrAt, ha, if_true])
  refine ⟨h3, Buf.get_ok (by exact hbg) (by simp only [bcsrAt, ha, if_true]), ⟨_, h1, h2⟩, ?_⟩
  unfold Bcsr.blockNonzeros
  simp only
  rw [h1, ok_bind, h3, ok_bind, h2 _ (Nat.le_refl _)]
  congr 1
  apply List.countP_congr
  intro a hae
  have h4 := H.inR a hae
  simp only [Bool.and_eq_true, beq_iff_eq, decide_eq_true_eq]
  constructor
  · rintro ⟨h5, -⟩; exact h5
  · intro h5; rw [h5] at h4; exact ⟨h5, by omega⟩

/-- **C13.** If the variable happens to hold a number that is no block's, the constructor writes outside the array of
blocks. -/
theorem C13_whatever_outside (M v rows columns : Nat) (es : List (Element T))
    (offR : List Nat) (blockrows : Nat) (offC : List Nat) (blockcols : Nat)
    (PR : Partition offR blockrows rows) (PC : Partition offC blockcols columns)
    (hne : es ≠ []) (hlen : es.length < M) (hgrid : blockrows * blockcols < M)
    (hrows : rows + 1 < M) (hcols : columns < M) (hbr : blockrows ≤ rows) (hbc : blockcols ≤ columns)
    (hin : InRange (ents es) rows columns) (hv : blockrows * blockcols ≤ v) :
    cooToBcsr M (some v) es rows columns offR blockrows offC blockcols = .error .oob := by
  have H := prepared_blkIn (M := M) PR PC hne hlen hgrid hrows hcols hbr (by omega) hin
  unfold cooToBcsr
  rw [calculateBlockId_spec PR PC (by omega) (by omega) (by omega) hin, ok_bind]
  have hn := countBlocks_spec M (prepared offR blockrows offC blockcols es) H.ne H.len H.sortedB
  unfold prepared at hn
  simp only
  rw [hn, ok_bind, checkPartition_ok hbr hbc (fun i hi => PR.rd_ok i hi) (fun i hi => PC.rd_ok i hi) PR.at_last PC.at_last, ok_bind,
    mulM_eq hgrid]
  have hpos : 0 < blockrows * blockcols := by
    obtain ⟨e, he⟩ := List.exists_mem_of_ne_nil es hne
    have := hin _ (List.mem_map_of_mem (f := NZ.toEnt) he)
    exact Nat.mul_pos (PR.pos this.1) (PC.pos this.2)
  rw [bcsrClear_out hgrid hpos hv]
  rfl

/-- **C13.** If it happens to hold the number of a block, and another block has no entry, then either the constructor
itself reads a member nobody assigned, or it returns and `release` does. -/
theorem C13_whatever_unset (M v b rows columns : Nat) (es : List (Element T))
    (offR : List Nat) (blockrows : Nat) (offC : List Nat) (blockcols : Nat)
    (PR : Partition offR blockrows rows) (PC : Partition offC blockcols columns)
    (hne : es ≠ []) (hlen : es.length < M) (hgrid : blockrows * blockcols < M)
    (hrows : rows + 1 < M) (hcols : columns < M) (hbr : blockrows ≤ rows) (hbc : blockcols ≤ columns)
    (hin : InRange (ents es) rows columns) (hv : v < blockrows * blockcols)
    (hb : b < blockrows * blockcols) (hbv : b ≠ v) (hempty : ¬ Occupied offR offC blockcols (ents es) b) :
    cooToBcsr M (some v) es rows columns offR blockrows offC blockcols = .error .uninit ∨
    ∃ A es', cooToBcsr M (some v) es rows columns offR blockrows offC blockcols = .ok (A, es') ∧
      A.freedBlocks M = .error .uninit := by
  have H := prepared_blkIn (M := M) PR PC hne hlen hgrid hrows hcols hbr (by omega) hin
  have hg : ∀ e ∈ prepared offR blockrows offC blockcols es, e.block < blockrows * blockcols := fun e he => (prepared_at PR PC hin he).1
  have hnb := runs_le_grid H hg
  rw [occupied_iff PR PC hin, Bool.not_eq_true] at hempty
  rw [cooToBcsr_tail PR PC hne hlen hgrid hrows hcols hbr hbc hin hv]
  generalize prepared offR blockrows offC blockcols es = es' at H hg hnb hempty ⊢
  by_cases hlow : ∃ c, c < (runs Element.block es').length ∧ c ≠ v ∧ es'.any (fun e => e.block == c) = false
  · obtain ⟨c, h1, h2, h3⟩ := hlow
    left
    rw [bcsrAcc_fail H hnb h1 h2 h3]
    rfl
  · right
    have hall : ∀ c, c < (runs Element.block es').length → es'.any (fun e => e.block == c) = true ∨ c = v := by
      intro c hc
      by_cases h : c = v
      · exact .inr h
      · refine .inl ?_
        by_contra h2
        exact hlow ⟨c, hc, h, by simpa using h2⟩
    rw [bcsrAcc_part H hnb hall]
    refine ⟨_, _, rfl, ?_⟩
    unfold Bcsr.freedBlocks
    simp only [bcsrAt]
    rw [mulM_eq hgrid]
    -- the first block nobody assigned
    induction b using Nat.strong_induction_on with
    | _ b ih =>
      by_cases hlow2 : ∃ c, c < b ∧ c ≠ v ∧ es'.any (fun e => e.block == c) = false
      · obtain ⟨c, hc, hcv, hca⟩ := hlow2
        exact ih c hc (by omega) hcv hca
      · have hall2 : ∀ c, c < b → es'.any (fun e => e.block == c) = true ∨ c = v := by
          intro c hc
          by_cases h : c = v
          · exact .inr h
          · refine .inl ?_
            by_contra h2
            exact hlow2 ⟨c, hc, h, by simpa using h2⟩
        have hpart := freed_part (n := (runs Element.block es').length) H hg (by omega) hall2
        simp only [bcsrHeights] at hpart
        rw [forLoop_split (mid := b) (Nat.zero_le _) (by omega), hpart, ok_bind, forLoop_step hb]
        have : ∀ d : Buf Nat, d.len = blockrows * blockcols → d.dat b = none → d.get b = .error .uninit := by
          intro d h1 h2
          unfold Buf.get
          simp [h1, h2, hb]
        rw [this _ rfl (by simp only [hempty]; simp [hbv])]
        rfl

/-- **C13.** If it holds the number of a block, every other block has an entry, and that block has one too or is the last of
the grid: the constructor does what it should.  Every block is a CSR matrix of its entries, and `release` frees the row
pointers of exactly the blocks that have entries. -/
theorem C13_whatever_right (M v rows columns : Nat) (es : List (Element T))
    (offR : List Nat) (blockrows : Nat) (offC : List Nat) (blockcols : Nat)
    (PR : Partition offR blockrows rows) (PC : Partition offC blockcols columns)
    (hne : es ≠ []) (hlen : es.length < M) (hgrid : blockrows * blockcols < M)
    (hrows : rows + 1 < M) (hcols : columns < M) (hbr : blockrows ≤ rows) (hbc : blockcols ≤ columns)
    (hin : InRange (ents es) rows columns) (hv : v < blockrows * blockcols)
    (hfull : ∀ b, b < blockrows * blockcols → b ≠ v → Occupied offR offC blockcols (ents es) b)
    (hlast : Occupied offR offC blockcols (ents es) v ∨ v + 1 = blockrows * blockcols) :
    ∃ A es' freed, cooToBcsr M (some v) es rows columns offR blockrows offC blockcols = .ok (A, es') ∧
      ByBlocks offR offC blockcols (ents es) es' ∧
      A.rows = rows ∧ A.columns = columns ∧ A.nnz = es.length ∧
      A.val.toList A.nnz = .ok (es'.map (·.val)) ∧
      (∀ i (h : i < es'.length), ∃ lo, offC[es'[i].block % blockcols]? = some lo ∧
            A.colInd.get i = .ok (es'[i].col - lo)) ∧
      (∀ b lo hi, Occupied offR offC blockcols (ents es) b → offR[b / blockcols]? = some lo →
        offR[b / blockcols + 1]? = some hi → BcsrBlock A es' b lo hi) ∧
      A.freedBlocks M = .ok freed ∧ freed.Nodup ∧
      ∀ b, b ∈ freed ↔ b < blockrows * blockcols ∧ Occupied offR offC blockcols (ents es) b := by
  have H := prepared_blkIn (M := M) PR PC hne hlen hgrid hrows hcols hbr (by omega) hin
  have hg : ∀ e ∈ prepared offR blockrows offC blockcols es, e.block < blockrows * blockcols := fun e he => (prepared_at PR PC hin he).1
  have hplen : (prepared offR blockrows offC blockcols es).length = es.length := prepared_length
  have hby := byBlocks_prepared PR PC hin
  rw [cooToBcsr_tail PR PC hne hlen hgrid hrows hcols hbr hbc hin hv]
  simp only [occupied_iff PR PC hin] at hfull hlast ⊢
  have hnum := runs_all H hg v hv hfull
  generalize prepared offR blockrows offC blockcols es = es' at H hg hplen hby hfull hlast hnum ⊢
  have hall : ∀ b, b < blockrows * blockcols → es'.any (fun e => e.block == b) = true ∨ b = v := by
    intro b hb
    by_cases h : b = v
    · exact .inr h
    · exact .inl (hfull b hb h)
  have hnb : (runs Element.block es').length ≤ blockrows * blockcols := by rw [hnum]; split <;> omega
  have hocc : ∀ b, es'.any (fun e => e.block == b) = true → b < (runs Element.block es').length := by
    intro b hb
    obtain ⟨e, he, heb⟩ := List.any_eq_true.1 hb
    have heb' : e.block = b := by simpa using heb
    have := hg e he
    rw [hnum]
    split
    · omega
    · next hv' =>
      have hl := hlast.resolve_left hv'
      have : b ≠ v := by rintro rfl; exact hv' hb
      omega
  rw [bcsrAcc_part H hnb (fun b hb => hall b (by omega)), ok_bind]
  refine ⟨_, _, (List.range (blockrows * blockcols)).filter (fun c => es'.any (fun e => e.block == c)), rfl, hby, rfl, rfl, hplen,
    ?_, ?_, ?_, ?_, List.nodup_range.filter _, ?_⟩
  · have h2 := toList_ofList (es'.map (·.val)) ⟨es'.length, fun k => (es'[k]?).map (fun e => e.val)⟩ (by simp) (fun i => by simp)
    simp only [List.length_map] at h2
    exact h2
  · intro i hi
    have h1 := Nat.mod_lt es'[i].block H.bcPos
    have h2 : es'[i].block % blockcols < offC.length := by rw [PC.len]; omega
    refine ⟨offF offC (es'[i].block % blockcols), ?_, ?_⟩
    · simp [offF, h2]
    · exact Buf.get_ok (by exact hi) (by simp [bcsrAt, hi])
  · intro b lo hi hb hlo hhi
    have e1 : offF offR (b / blockcols) = lo := by simp [offF, hlo]
    have e2 : offF offR (b / blockcols + 1) = hi := by simp [offF, hhi]
    rw [← e1, ← e2]
    exact bcsrBlock_ok H hg hb (hocc b hb)
  · unfold Bcsr.freedBlocks
    have := freed_part (n := (runs Element.block es').length) H hg (Nat.le_refl _) hall
    simp only [bcsrAt]
    rw [mulM_eq hgrid]
    exact this
  · intro b
    rw [List.mem_filter, List.mem_range]

/-- **C13.** If it holds the number of a block without entries that is not the last of the grid, and every other block has
entries: the constructor returns, but the row pointers of the last block are left as counts, so that `block_nonzeros` of
it is the number of entries of its last row. -/
theorem C13_whatever_last (M v rows columns : Nat) (es : List (Element T))
    (offR : List Nat) (blockrows : Nat) (offC : List Nat) (blockcols : Nat)
    (PR : Partition offR blockrows rows) (PC : Partition offC blockcols columns)
    (hne : es ≠ []) (hlen : es.length < M) (hgrid : blockrows * blockcols < M)
    (hrows : rows + 1 < M) (hcols : columns < M) (hbr : blockrows ≤ rows) (hbc : blockcols ≤ columns)
    (hin : InRange (ents es) rows columns) (hv : v + 1 < blockrows * blockcols)
    (hfull : ∀ b, b < blockrows * blockcols → b ≠ v → Occupied offR offC blockcols (ents es) b)
    (hempty : ¬ Occupied offR offC blockcols (ents es) v) :
    ∃ A es', cooToBcsr M (some v) es rows columns offR blockrows offC blockcols = .ok (A, es') ∧
      ByBlocks offR offC blockcols (ents es) es' ∧
      A.blockNonzeros (blockrows * blockcols - 1) =
        .ok (es'.countP (fun e => e.block == blockrows * blockcols - 1 && e.row + 1 == rows)) ∧
      ∀ b lo hi, b + 1 < blockrows * blockcols → b ≠ v → offR[b / blockcols]? = some lo →
        offR[b / blockcols + 1]? = some hi → BcsrBlock A es' b lo hi := by
  have H := prepared_blkIn (M := M) PR PC hne hlen hgrid hrows hcols hbr (by omega) hin
  have hg : ∀ e ∈ prepared offR blockrows offC blockcols es, e.block < blockrows * blockcols := fun e he => (prepared_at PR PC hin he).1
  have hplen : (prepared offR blockrows offC blockcols es).length = es.length := prepared_length
  have hby := byBlocks_prepared PR PC hin
  rw [cooToBcsr_tail PR PC hne hlen hgrid hrows hcols hbr hbc hin (by omega)]
  simp only [occupied_iff PR PC hin] at hfull hempty
  have hnum := runs_all H hg v (by omega) hfull
  rw [if_neg hempty] at hnum
  generalize prepared offR blockrows offC blockcols es = es' at H hg hplen hby hfull hempty hnum ⊢
  have hall : ∀ b, b < blockrows * blockcols → es'.any (fun e => e.block == b) = true ∨ b = v := by
    intro b hb
    by_cases h : b = v
    · exact .inr h
    · exact .inl (hfull b hb h)
  rw [bcsrAcc_part H (by omega) (fun b hb => hall b (by omega)), ok_bind]
  refine ⟨_, _, rfl, hby, ?_, ?_⟩
  · have ha := hfull (blockrows * blockcols - 1) (by omega) (by omega)
    have hlt : blockrows * blockcols - 1 < blockrows * blockcols := by omega
    have hdiv : (blockrows * blockcols - 1) / blockcols + 1 = blockrows := by
      have hbp := H.bcPos
      have h1 : (blockrows * blockcols - 1) / blockcols < blockrows := (Nat.div_lt_iff_lt_mul hbp).2 hlt
      have h2 : blockrows - 1 ≤ (blockrows * blockcols - 1) / blockcols := by
        rw [Nat.le_div_iff_mul_le hbp, Nat.sub_mul]; omega
      omega
    have hend : offF offR ((blockrows * blockcols - 1) / blockcols + 1) = rows := by rw [hdiv]; exact PR.at_last
    unfold Bcsr.blockNonzeros
    simp only
    rw [Buf.get_ok (a := bcsrRow (offF offR) blockcols (blockrows * blockcols - 1) es') (by exact hlt)
        (by simp only [bcsrAccs, ha, if_true]; rw [if_neg (by omega)]), ok_bind,
      Buf.get_ok (a := offF offR ((blockrows * blockcols - 1) / blockcols + 1) - offF offR ((blockrows * blockcols - 1) / blockcols))
        (by exact hlt) (by simp only [bcsrAt, ha, if_true]), ok_bind]
    unfold bcsrRow
    rw [Buf.get_full (by omega), List.countP_filter]
    congr 1
    apply List.countP_congr
    intro a hae
    have h4 := H.inR a hae
    simp only [Bool.and_eq_true, beq_iff_eq]
    constructor
    · rintro ⟨h5, h6⟩; rw [h6] at h5 h4; exact ⟨h6, by omega⟩
    · rintro ⟨h5, h6⟩; rw [h5] at h4 ⊢; exact ⟨by omega, rfl⟩
  · intro b lo hi hb hbv hlo hhi
    have e1 : offF offR (b / blockcols) = lo := by simp [offF, hlo]
    have e2 : offF offR (b / blockcols + 1) = hi := by simp [offF, hhi]
    rw [← e1, ← e2]
    exact bcsrBlock_ok H hg (hfull b (by omega) hbv) (by omega)
end

end Gsb
