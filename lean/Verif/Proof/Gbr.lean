import Verif.Model.Cgbr
import Verif.Proof.CsbrTop
/-
The constructor loop of CGBR / CGBR2 in closed form.
-/
namespace Gsb
variable {T : Type}

theorem whileLoop_closed {σ : Type} {cond : σ → C Bool} {body : σ → C σ} (S : Nat → σ) (n fuel : Nat)
    (hf : n < fuel) (hc : ∀ k, k < n → cond (S k) = .ok true) (hb : ∀ k, k < n → body (S k) = .ok (S (k + 1)))
    (hn : cond (S n) = .ok false) : whileLoop cond body fuel (S 0) = .ok (S n) := by
  have key : ∀ m k, k + m = n → ∀ fuel, m < fuel → whileLoop cond body fuel (S k) = .ok (S n) := by
    intro m
    induction m with
    | zero =>
      intro k hk fuel hf
      have : k = n := by omega
      subst this
      obtain ⟨f, rfl⟩ : ∃ f, fuel = f + 1 := ⟨fuel - 1, by omega⟩
      unfold whileLoop
      rw [hn, ok_bind]
      rfl
    | succ m ih =>
      intro k hk fuel hf
      obtain ⟨f, rfl⟩ : ∃ f, fuel = f + 1 := ⟨fuel - 1, by omega⟩
      unfold whileLoop
      rw [hc k (by omega), ok_bind, if_pos rfl, hb k (by omega), ok_bind]
      exact ih (k + 1) (by omega) f (by omega)
  exact key n 0 (by omega) fuel hf

theorem whileLoop_fail {σ : Type} {cond : σ → C Bool} {body : σ → C σ} {err : Err} (S : Nat → σ) (n fuel : Nat)
    (hf : n < fuel) (hc : ∀ k, k ≤ n → cond (S k) = .ok true) (hb : ∀ k, k < n → body (S k) = .ok (S (k + 1)))
    (hn : body (S n) = .error err) : whileLoop cond body fuel (S 0) = .error err := by
  have key : ∀ m k, k + m = n → ∀ fuel, m < fuel → whileLoop cond body fuel (S k) = .error err := by
    intro m
    induction m with
    | zero =>
      intro k hk fuel hf
      have : k = n := by omega
      subst this
      obtain ⟨f, rfl⟩ : ∃ f, fuel = f + 1 := ⟨fuel - 1, by omega⟩
      unfold whileLoop
      rw [hc k (by omega), ok_bind, if_pos rfl, hn, error_bind]
    | succ m ih =>
      intro k hk fuel hf
      obtain ⟨f, rfl⟩ : ∃ f, fuel = f + 1 := ⟨fuel - 1, by omega⟩
      unfold whileLoop
      rw [hc k (by omega), ok_bind, if_pos rfl, hb k (by omega), ok_bind]
      exact ih (k + 1) (by omega) f (by omega)
  exact key n 0 (by omega) fuel hf

theorem scanEnd_spec {M : Nat} (P g R : List (Element T)) (b : Nat) (hg : g ≠ []) (hall : ∀ e ∈ g, e.block = b)
    (hR : ∀ e, R.head? = some e → e.block ≠ b) (hM : (P ++ (g ++ R)).length < M) :
    scanEnd M (P ++ (g ++ R)) b (P.length + 1) = .ok (P.length + g.length) := by
  have hgl : 0 < g.length := List.length_pos_iff.2 hg
  simp only [List.length_append] at hM
  unfold scanEnd
  have := whileLoop_closed (cond := fun j => if j < (P ++ (g ++ R)).length then do
      let e ← rd (P ++ (g ++ R)) j
      .ok (e.block == b)
    else .ok false) (body := fun j => .ok (addM M j 1)) (fun k => P.length + 1 + k) (g.length - 1)
    ((P ++ (g ++ R)).length + 1) (by simp; omega) (by
      intro k hk
      have hj : P.length + 1 + k < (P ++ (g ++ R)).length := by simp; omega
      rw [if_pos hj, rd_ok hj, ok_bind]
      have : (P ++ (g ++ R))[P.length + 1 + k] = g[k + 1] := by
        rw [List.getElem_append_right (by omega), List.getElem_append_left (by omega)]
        congr 1; omega
      rw [this, hall _ (List.getElem_mem _)]; simp) (by
      intro k hk
      rw [addM_eq (by omega)]; rfl) (by
      split
      · next hj =>
        rw [rd_ok hj, ok_bind]
        cases R with
        | nil => simp at hj; omega
        | cons r R =>
          have : (P ++ (g ++ r :: R))[P.length + 1 + (g.length - 1)] = r := by
            rw [List.getElem_append_right (by omega), List.getElem_append_right (by omega)]
            have h0 : P.length + 1 + (g.length - 1) - P.length - g.length = 0 := by omega
            simp only [h0, List.getElem_cons_zero]
          rw [this]
          have := hR r rfl
          simp [this]
      · rfl)
  simp only [Nat.add_zero] at this
  rw [this]
  congr 1; omega

/-- The element in block-local coordinates. -/
def locElem (ro co : Nat) (e : Element T) : Element T := { e with row := e.row - ro, col := e.col - co }

theorem localize_spec {M : Nat} (c : Cur) (P g R : List (Element T))
    (hin : ∀ e ∈ g, assertInBlock M c e.row e.col = .ok () ∧ subM M e.row c.brOff = e.row - c.brOff ∧
      subM M e.col c.bcOff = e.col - c.bcOff) :
    localize M c (P ++ (g ++ R)) P.length (P.length + g.length) =
      .ok (P ++ (g.map (locElem c.brOff c.bcOff) ++ R)) := by
  unfold localize
  refine forLoop_closed' (fun m => P ++ ((g.take (m - P.length)).map (locElem c.brOff c.bcOff) ++
    (g.drop (m - P.length) ++ R))) (by omega) (by simp) (by simp) ?_
  intro m h1 h2
  obtain ⟨k, rfl⟩ : ∃ k, m = P.length + k := ⟨m - P.length, by omega⟩
  have hk : k < g.length := by omega
  simp only [Nat.add_sub_cancel_left, show P.length + k + 1 - P.length = k + 1 by omega]
  have hlen : ((g.take k).map (locElem c.brOff c.bcOff)).length = k := by simp; omega
  have hdrop : g.drop k = g[k] :: g.drop (k + 1) := List.drop_eq_getElem_cons hk
  have hget : rd (P ++ ((g.take k).map (locElem c.brOff c.bcOff) ++ (g.drop k ++ R))) (P.length + k) = .ok g[k] := by
    have : (P ++ ((g.take k).map (locElem c.brOff c.bcOff) ++ (g.drop k ++ R)))[P.length + k]? = some g[k] := by
      rw [List.getElem?_append_right (by omega), List.getElem?_append_right (by omega), hlen, hdrop,
        Nat.add_sub_cancel_left, Nat.sub_self, List.cons_append]
      rfl
    unfold rd; rw [this]
  obtain ⟨a1, a2, a3⟩ := hin g[k] (List.getElem_mem hk)
  rw [hget, ok_bind, a1, ok_bind, a2, a3]
  congr 1
  rw [List.set_append_right _ _ (by omega), List.set_append_right _ _ (by omega), hlen, hdrop]
  simp only [Nat.add_sub_cancel_left, Nat.sub_self, List.cons_append, List.set_cons_zero]
  rw [take_succ_eq hk, List.map_append]
  simp [locElem]

/-! ### Closed form -/

section
variable {β : Type}

/-- The results of building the blocks. -/
abbrev Results (β T : Type) := Nat → Nat × β × List (Element T)

/-- Number of blocks of type `t` among the first `k`. -/
def cntType (res : Results β T) (k t : Nat) : Nat := (List.range k).countP (fun j => (res j).1 == t)

/-- Non-zeros in blocks of type `t` among the first `k`. -/
def nnzType (res : Results β T) (len : Nat → Nat) (k t : Nat) : Nat :=
  (((List.range k).filter (fun j => (res j).1 == t)).map len).sum

theorem cntType_le (res : Results β T) (k t : Nat) : cntType res k t ≤ k := by
  have : cntType res k t ≤ (List.range k).length := List.countP_le_length
  simpa using this

theorem cntType_succ (res : Results β T) (k t : Nat) :
    cntType res (k + 1) t = if t = (res k).1 then cntType res k t + 1 else cntType res k t := by
  unfold cntType
  rw [List.range_succ, List.countP_append, List.countP_singleton]
  by_cases h : t = (res k).1
  · simp [h]
  · have : ¬ (res k).1 = t := fun h' => h h'.symm
    simp [h, this]

theorem nnzType_succ (res : Results β T) (len : Nat → Nat) (k t : Nat) :
    nnzType res len (k + 1) t = if t = (res k).1 then nnzType res len k t + len k else nnzType res len k t := by
  unfold nnzType
  rw [List.range_succ, List.filter_append, List.map_append, List.sum_append]
  by_cases h : t = (res k).1
  · simp [h]
  · have : ¬ (res k).1 = t := fun h' => h h'.symm
    simp [h, this]

theorem nnzType_le (res : Results β T) (len : Nat → Nat) (k t : Nat) :
    nnzType res len k t ≤ ((List.range k).map len).sum := by
  induction k with
  | zero => simp [nnzType]
  | succ k ih =>
    rw [nnzType_succ, List.range_succ, List.map_append, List.sum_append]
    simp only [List.map_cons, List.map_nil, List.sum_singleton]
    split <;> omega

/-- Length of run `k`. -/
def runLen (es : List (Element T)) (k : Nat) : Nat := (((runs Element.block es)[k]?).getD []).length

theorem runLen_eq (es : List (Element T)) {k : Nat} (hk : k < (runs Element.block es).length) :
    runLen es k = ((runs Element.block es)[k]).length := by simp [runLen, hk]

theorem sum_runLen (es : List (Element T)) (k : Nat) (hk : k ≤ (runs Element.block es).length) :
    ((List.range k).map (runLen es)).sum = runStart Element.block es k := by
  induction k with
  | zero => simp [runStart]
  | succ k ih =>
    rw [List.range_succ, List.map_append, List.sum_append, ih (by omega), runStart_succ _ _ _ (by omega)]
    simp [runLen_eq es (show k < _ by omega)]

theorem runStart_le (es : List (Element T)) (k : Nat) (hk : k ≤ (runs Element.block es).length) :
    runStart Element.block es k ≤ es.length := by
  rw [← runStart_length Element.block es]
  obtain ⟨d, hd⟩ : ∃ d, (runs Element.block es).length = k + d := ⟨(runs Element.block es).length - k, by omega⟩
  rw [hd]
  clear hk
  induction d with
  | zero => exact Nat.le_refl _
  | succ d ih =>
    by_cases h : k + d < (runs Element.block es).length
    · have := runStart_succ Element.block es (k + d) h
      have ih2 : ∀ n, n ≤ d → runStart Element.block es k ≤ runStart Element.block es (k + n) := by
        intro n
        induction n with
        | zero => intro _; exact Nat.le_refl _
        | succ n ihn =>
          intro hn
          have := runStart_succ Element.block es (k + n) (by omega)
          have := ihn (by omega)
          rw [← Nat.add_assoc]; omega
      have := ih2 d (Nat.le_refl _)
      rw [← Nat.add_assoc]; omega
    · omega

variable (res : Results β T) (fR fC : Nat → Nat) (bc blockrows : Nat) (es : List (Element T))

/-- The element array when `k` blocks are done. -/
def gbrArr (k : Nat) : List (Element T) :=
  ((List.range k).map (fun j => (res j).2.2)).flatten ++ ((runs Element.block es).drop k).flatten

/-- The constructor's variables when `k` blocks are done. -/
def gbrState (k : Nat) : GbrFill β T where
  i := runStart Element.block es k
  blockIndex := k
  es := gbrArr res es k
  blockrowPtr := Buf.full (blockrows + 1) (fun i => ((runKeys Element.block es).take k).countP (fun κ => κ / bc + 1 == i))
  blockcolInd := ⟨(runs Element.block es).length, fun j => (((runKeys Element.block es).take k)[j]?).map (· % bc)⟩
  blocks := ⟨(runs Element.block es).length, fun j => ((List.range k)[j]?).map (fun j => (res j).2.1)⟩
  typeBlocks := Buf.full 6 (cntType res k)
  typeNnz := Buf.full 6 (nnzType res (runLen es) k)

/-- The elements of run `k` in local coordinates. -/
def runLoc (k : Nat) : List (Element T) :=
  (((runs Element.block es)[k]?).getD []).map (fun e => locElem (fR (e.block / bc)) (fC (e.block % bc)) e)

/-- Block height and width. -/
def blkRows (k : Nat) : Nat :=
  fR (((runKeys Element.block es)[k]?.getD 0) / bc + 1) - fR (((runKeys Element.block es)[k]?.getD 0) / bc)
def blkCols (k : Nat) : Nat :=
  fC (((runKeys Element.block es)[k]?.getD 0) % bc + 1) - fC (((runKeys Element.block es)[k]?.getD 0) % bc)

variable {res fR fC bc blockrows es}

theorem gbrArr_prefix_length (hlen : ∀ k, k < (runs Element.block es).length → (res k).2.2.length = runLen es k)
    {k : Nat} (hk : k ≤ (runs Element.block es).length) :
    (((List.range k).map (fun j => (res j).2.2)).flatten).length = runStart Element.block es k := by
  induction k with
  | zero => simp [runStart]
  | succ k ih =>
    rw [List.range_succ, List.map_append, List.flatten_append, List.length_append, ih (by omega),
      runStart_succ _ _ _ (by omega)]
    simp [hlen k (by omega), runLen_eq es (show k < _ by omega)]

theorem gbrArr_length (hlen : ∀ k, k < (runs Element.block es).length → (res k).2.2.length = runLen es k)
    {k : Nat} (hk : k ≤ (runs Element.block es).length) : (gbrArr res es k).length = es.length := by
  unfold gbrArr
  rw [List.length_append, gbrArr_prefix_length hlen hk]
  conv => rhs; rw [← (runsOK Element.block es).flat, ← List.take_append_drop k (runs Element.block es), List.flatten_append,
    List.length_append]
  congr 1
  unfold runStart
  rw [List.length_flatten]

theorem gbrStep_spec {M : Nat} {offR offC : List Nat} {make : MakeBlock β T} (H : BlkIn M fR fC blockrows bc es)
    (hR : ∀ i, i ≤ blockrows → rd offR i = .ok (fR i)) (hC : ∀ i, i ≤ bc → rd offC i = .ok (fC i))
    (hlen : ∀ k, k < (runs Element.block es).length → (res k).2.2.length = runLen es k)
    (hty : ∀ k, k < (runs Element.block es).length → (res k).1 < 6)
    {k : Nat} (hk : k < (runs Element.block es).length)
    (hmake : make (blkRows fR bc es k) (blkCols fC bc es k) (runLoc fR fC bc es k) = .ok (res k)) :
    gbrStep M make offR offC bc (gbrState res bc blockrows es k) = .ok (gbrState res bc blockrows es (k + 1)) := by
  have hlenE := H.len
  obtain ⟨P, hP⟩ : ∃ P, P = ((List.range k).map (fun j => (res j).2.2)).flatten := ⟨_, rfl⟩
  obtain ⟨R, hRR⟩ : ∃ R, R = ((runs Element.block es).drop (k + 1)).flatten := ⟨_, rfl⟩
  obtain ⟨g, hg⟩ : ∃ g, g = (runs Element.block es)[k] := ⟨_, rfl⟩
  have hPl : P.length = runStart Element.block es k := by rw [hP]; exact gbrArr_prefix_length hlen (by omega)
  have harr : gbrArr res es k = P ++ (g ++ R) := by
    unfold gbrArr
    rw [← hP, List.drop_eq_getElem_cons hk, List.flatten_cons, ← hRR, ← hg]
  have hm := run_mem Element.block es k hk
  rw [← hg] at hm
  obtain ⟨hm1, hm2, hm3⟩ := hm
  have hgl : 0 < g.length := List.length_pos_iff.2 hm2
  obtain ⟨b, hb⟩ : ∃ b, b = runKey Element.block g := ⟨_, rfl⟩
  have hkl : k < (runKeys Element.block es).length := by simpa using hk
  have hbk : (runKeys Element.block es)[k] = b := by rw [runKeys_getElem _ _ _ hk, ← hg, hb]
  rw [← hb] at hm1
  have hRhead : ∀ e, R.head? = some e → e.block ≠ b := by
    intro e he
    rw [hRR] at he
    by_cases hk1 : k + 1 < (runs Element.block es).length
    · rw [List.drop_eq_getElem_cons hk1, List.flatten_cons] at he
      have h2 := run_mem Element.block es (k + 1) hk1
      have hmem : e ∈ (runs Element.block es)[k + 1] := by
        have hne := h2.2.1
        cases hgg : (runs Element.block es)[k + 1] with
        | nil => exact absurd hgg hne
        | cons a t =>
          rw [hgg] at he
          simp at he; subst he; simp
      have h3 := (h2.1 e hmem).2
      have h4 := List.pairwise_iff_getElem.1 (runKeys_strict H) k (k + 1) hkl (by simpa using hk1) (by omega)
      rw [hbk, runKeys_getElem _ _ _ hk1] at h4
      omega
    · rw [List.drop_eq_nil_of_le (by omega)] at he; simp at he
  have hal : (P ++ (g ++ R)).length = es.length := by rw [← harr]; exact gbrArr_length hlen (by omega)
  obtain ⟨e0, he0, he0b⟩ : ∃ e0, e0 ∈ es ∧ e0.block = b := by
    obtain ⟨a, ha⟩ := List.exists_mem_of_ne_nil g hm2
    exact ⟨a, (hm1 a ha).1, (hm1 a ha).2⟩
  have hrow := H.row e0 he0
  have hinR0 := H.inR e0 he0
  have hinC0 := H.inC e0 he0
  have hbrM := H.brM
  rw [he0b] at hrow hinR0 hinC0
  have hrd : rd (gbrState res bc blockrows es k).es (gbrState res bc blockrows es k).i = .ok (g[0]'hgl) := by
    simp only [gbrState]
    rw [harr, ← hPl]
    have : (P ++ (g ++ R))[P.length]? = some (g[0]'hgl) := by
      rw [List.getElem?_append_right (by omega), List.getElem?_append_left (by omega)]
      simp [hgl]
    simp [rd, this]
  have hg0 : (g[0]'hgl).block = b := (hm1 _ (List.getElem_mem _)).2
  have hcoord := blockCoords_ok H hR hC he0
  rw [he0b] at hcoord
  have hstart := runStart_succ Element.block es k hk
  rw [← hg] at hstart
  have hnk : k + 1 ≤ es.length := Nat.le_trans hk (runs_length_le _ _)
  unfold gbrStep
  rw [hrd, ok_bind, hg0]
  simp only [gbrState]
  have hPg : P.length + g.length ≤ es.length := by rw [← hal]; simp
  have hscan := scanEnd_spec (M := M) P g R b hm2 (fun e he => (hm1 e he).2) hRhead (by omega)
  rw [harr, ← hPl, addM_eq (by omega), hscan, ok_bind, hcoord, ok_bind]
  have hinc := incr_count (M := M) ((runKeys Element.block es).take k) (fun κ => κ / bc) b (len := blockrows + 1)
    (by omega) (by simp; omega)
  have htk : (runKeys Element.block es).take k ++ [b] = (runKeys Element.block es).take (k + 1) := by
    rw [take_succ_eq hkl, hbk]
  simp only
  rw [addM_eq (by omega), hinc, ok_bind, htk,
    fill_put ((runKeys Element.block es).take k) (· % bc) b (by simp; omega) hk, ok_bind, htk]
  rw [localize_spec (M := M) (curOf fR fC bc b) P g R (by
    intro e he
    have h1 := hm1 e he
    have h2 := H.inR e h1.1
    have h3 := H.inC e h1.1
    have h4 := H.maxR e h1.1
    have h5 := H.maxC e h1.1
    have h6 := assertInBlock_ok fR fC bc H h1.1
    rw [h1.2] at h2 h3 h4 h5 h6
    refine ⟨h6, ?_, ?_⟩
    · simp only [curOf]; exact subM_eq (by omega) h2.1
    · simp only [curOf]; exact subM_eq (by omega) h3.1), ok_bind]
  have hslice : ((P ++ (g.map (locElem (curOf fR fC bc b).brOff (curOf fR fC bc b).bcOff) ++ R)).take (P.length + g.length)).drop P.length =
      runLoc fR fC bc es k := by
    rw [← List.append_assoc, List.take_append_of_le_length (by simp), List.take_of_length_le (by simp),
      List.drop_left']
    · unfold runLoc
      simp only [hk, List.getElem?_eq_getElem, Option.getD_some, ← hg]
      refine List.map_congr_left (fun e he => ?_)
      rw [(hm1 e he).2]; rfl
    · rfl
  have hsz1 : (curOf fR fC bc b).brSize = blkRows fR bc es k := by
    unfold curOf blkRows; rw [List.getElem?_eq_getElem hkl, Option.getD_some, hbk]
  have hsz2 : (curOf fR fC bc b).bcSize = blkCols fC bc es k := by
    unfold curOf blkCols; rw [List.getElem?_eq_getElem hkl, Option.getD_some, hbk]
  rw [hslice, hsz1, hsz2, hmake, ok_bind]
  have hput : (Buf.mk (runs Element.block es).length (fun j => ((List.range k)[j]?).map (fun j => (res j).2.1))).put k (res k).2.1 =
      .ok (Buf.mk (runs Element.block es).length (fun j => ((List.range (k + 1))[j]?).map (fun j => (res j).2.1))) := by
    rw [List.range_succ]
    exact fill_put (List.range k) (fun j => (res j).2.1) k (by simp) hk
  rw [hput, ok_bind]
  have hcl := cntType_le res k (res k).1
  rw [incr_full _ (hty k hk) (by omega), ok_bind, Buf.get_full (hty k hk), ok_bind, Buf.put_full (hty k hk), ok_bind]
  have hnl := nnzType_le res (runLen es) k (res k).1
  rw [sum_runLen es k (by omega)] at hnl
  rw [subM_eq (by omega) (by omega), Nat.add_sub_cancel_left, addM_eq (by omega), addM_eq (by omega), hstart, ← hPl]
  congr 1
  have ht1 : (P ++ (g.map (locElem (curOf fR fC bc b).brOff (curOf fR fC bc b).bcOff) ++ R)).take P.length = P := by simp
  have ht2 : (P ++ (g.map (locElem (curOf fR fC bc b).brOff (curOf fR fC bc b).bcOff) ++ R)).drop (P.length + g.length) = R := by
    rw [← List.append_assoc, List.drop_left' (by simp)]
  rw [ht1, ht2]
  have harr1 : gbrArr res es (k + 1) = P ++ (res k).2.2 ++ R := by
    unfold gbrArr
    rw [List.range_succ, List.map_append, List.flatten_append, ← hP, ← hRR]; simp
  rw [harr1]
  have hf1 : (fun i => if i = (res k).1 then cntType res k i + 1 else cntType res k i) = cntType res (k + 1) := by
    funext t; rw [cntType_succ]
  have hf2 : (fun i => if i = (res k).1 then nnzType res (runLen es) k (res k).1 + g.length else nnzType res (runLen es) k i) =
      nnzType res (runLen es) (k + 1) := by
    funext t; rw [nnzType_succ, runLen_eq es hk, ← hg]
    by_cases h : t = (res k).1
    · subst h; simp
    · simp [h]
  rw [hf1, hf2]

/-- The constructor loop stops at the first block that cannot be made. -/
theorem gbrStep_fail {M : Nat} {offR offC : List Nat} {make : MakeBlock β T} {err : Err} (H : BlkIn M fR fC blockrows bc es)
    (hR : ∀ i, i ≤ blockrows → rd offR i = .ok (fR i)) (hC : ∀ i, i ≤ bc → rd offC i = .ok (fC i))
    (hlen : ∀ k, k < (runs Element.block es).length → (res k).2.2.length = runLen es k)
    {k : Nat} (hk : k < (runs Element.block es).length)
    (hmake : make (blkRows fR bc es k) (blkCols fC bc es k) (runLoc fR fC bc es k) = .error err) :
    gbrStep M make offR offC bc (gbrState res bc blockrows es k) = .error err := by
  have hlenE := H.len
  obtain ⟨P, hP⟩ : ∃ P, P = ((List.range k).map (fun j => (res j).2.2)).flatten := ⟨_, rfl⟩
  obtain ⟨R, hRR⟩ : ∃ R, R = ((runs Element.block es).drop (k + 1)).flatten := ⟨_, rfl⟩
  obtain ⟨g, hg⟩ : ∃ g, g = (runs Element.block es)[k] := ⟨_, rfl⟩
  have hPl : P.length = runStart Element.block es k := by rw [hP]; exact gbrArr_prefix_length hlen (by omega)
  have harr : gbrArr res es k = P ++ (g ++ R) := by
    unfold gbrArr
    rw [← hP, List.drop_eq_getElem_cons hk, List.flatten_cons, ← hRR, ← hg]
  have hm := run_mem Element.block es k hk
  rw [← hg] at hm
  obtain ⟨hm1, hm2, hm3⟩ := hm
  have hgl : 0 < g.length := List.length_pos_iff.2 hm2
  obtain ⟨b, hb⟩ : ∃ b, b = runKey Element.block g := ⟨_, rfl⟩
  have hkl : k < (runKeys Element.block es).length := by simpa using hk
  have hbk : (runKeys Element.block es)[k] = b := by rw [runKeys_getElem _ _ _ hk, ← hg, hb]
  rw [← hb] at hm1
  have hRhead : ∀ e, R.head? = some e → e.block ≠ b := by
    intro e he
    rw [hRR] at he
    by_cases hk1 : k + 1 < (runs Element.block es).length
    · rw [List.drop_eq_getElem_cons hk1, List.flatten_cons] at he
      have h2 := run_mem Element.block es (k + 1) hk1
      have hmem : e ∈ (runs Element.block es)[k + 1] := by
        have hne := h2.2.1
        cases hgg : (runs Element.block es)[k + 1] with
        | nil => exact absurd hgg hne
        | cons a t =>
          rw [hgg] at he
          simp at he; subst he; simp
      have h3 := (h2.1 e hmem).2
      have h4 := List.pairwise_iff_getElem.1 (runKeys_strict H) k (k + 1) hkl (by simpa using hk1) (by omega)
      rw [hbk, runKeys_getElem _ _ _ hk1] at h4
      omega
    · rw [List.drop_eq_nil_of_le (by omega)] at he; simp at he
  have hal : (P ++ (g ++ R)).length = es.length := by rw [← harr]; exact gbrArr_length hlen (by omega)
  obtain ⟨e0, he0, he0b⟩ : ∃ e0, e0 ∈ es ∧ e0.block = b := by
    obtain ⟨a, ha⟩ := List.exists_mem_of_ne_nil g hm2
    exact ⟨a, (hm1 a ha).1, (hm1 a ha).2⟩
  have hrow := H.row e0 he0
  have hinR0 := H.inR e0 he0
  have hinC0 := H.inC e0 he0
  have hbrM := H.brM
  rw [he0b] at hrow hinR0 hinC0
  have hrd : rd (gbrState res bc blockrows es k).es (gbrState res bc blockrows es k).i = .ok (g[0]'hgl) := by
    simp only [gbrState]
    rw [harr, ← hPl]
    have : (P ++ (g ++ R))[P.length]? = some (g[0]'hgl) := by
      rw [List.getElem?_append_right (by omega), List.getElem?_append_left (by omega)]
      simp [hgl]
    simp [rd, this]
  have hg0 : (g[0]'hgl).block = b := (hm1 _ (List.getElem_mem _)).2
  have hcoord := blockCoords_ok H hR hC he0
  rw [he0b] at hcoord
  have hstart := runStart_succ Element.block es k hk
  rw [← hg] at hstart
  have hnk : k + 1 ≤ es.length := Nat.le_trans hk (runs_length_le _ _)
  unfold gbrStep
  rw [hrd, ok_bind, hg0]
  simp only [gbrState]
  have hPg : P.length + g.length ≤ es.length := by rw [← hal]; simp
  have hscan := scanEnd_spec (M := M) P g R b hm2 (fun e he => (hm1 e he).2) hRhead (by omega)
  rw [harr, ← hPl, addM_eq (by omega), hscan, ok_bind, hcoord, ok_bind]
  have hinc := incr_count (M := M) ((runKeys Element.block es).take k) (fun κ => κ / bc) b (len := blockrows + 1)
    (by omega) (by simp; omega)
  have htk : (runKeys Element.block es).take k ++ [b] = (runKeys Element.block es).take (k + 1) := by
    rw [take_succ_eq hkl, hbk]
  simp only
  rw [addM_eq (by omega), hinc, ok_bind, htk,
    fill_put ((runKeys Element.block es).take k) (· % bc) b (by simp; omega) hk, ok_bind, htk]
  rw [localize_spec (M := M) (curOf fR fC bc b) P g R (by
    intro e he
    have h1 := hm1 e he
    have h2 := H.inR e h1.1
    have h3 := H.inC e h1.1
    have h4 := H.maxR e h1.1
    have h5 := H.maxC e h1.1
    have h6 := assertInBlock_ok fR fC bc H h1.1
    rw [h1.2] at h2 h3 h4 h5 h6
    refine ⟨h6, ?_, ?_⟩
    · simp only [curOf]; exact subM_eq (by omega) h2.1
    · simp only [curOf]; exact subM_eq (by omega) h3.1), ok_bind]
  have hslice : ((P ++ (g.map (locElem (curOf fR fC bc b).brOff (curOf fR fC bc b).bcOff) ++ R)).take (P.length + g.length)).drop P.length =
      runLoc fR fC bc es k := by
    rw [← List.append_assoc, List.take_append_of_le_length (by simp), List.take_of_length_le (by simp),
      List.drop_left']
    · unfold runLoc
      simp only [hk, List.getElem?_eq_getElem, Option.getD_some, ← hg]
      refine List.map_congr_left (fun e he => ?_)
      rw [(hm1 e he).2]; rfl
    · rfl
  have hsz1 : (curOf fR fC bc b).brSize = blkRows fR bc es k := by
    unfold curOf blkRows; rw [List.getElem?_eq_getElem hkl, Option.getD_some, hbk]
  have hsz2 : (curOf fR fC bc b).bcSize = blkCols fC bc es k := by
    unfold curOf blkCols; rw [List.getElem?_eq_getElem hkl, Option.getD_some, hbk]
  rw [hslice, hsz1, hsz2, hmake, error_bind]

/-- The constructed matrix. -/
def gbrOf (res : Results β T) (offR offC : List Nat) (rows columns blockrows bc : Nat) (es : List (Element T)) : Gbr β where
  blocks := ⟨(runs Element.block es).length, fun j => ((List.range (runs Element.block es).length)[j]?).map (fun j => (res j).2.1)⟩
  blockrowPtr := Buf.full (blockrows + 1) (fun k => if k ≤ blockrows then
      (runKeys Element.block es).countP (fun κ => decide (κ / bc < k))
    else (runKeys Element.block es).countP (fun κ => κ / bc + 1 == k))
  blockcolInd := ⟨(runs Element.block es).length, fun k => ((runKeys Element.block es)[k]?).map (· % bc)⟩
  typeBlocks := Buf.full 6 (cntType res (runs Element.block es).length)
  typeNnz := Buf.full 6 (nnzType res (runLen es) (runs Element.block es).length)
  offR := offR
  offC := offC
  blockrows := blockrows
  blockcols := bc
  nnzblocks := (runs Element.block es).length
  rows := rows
  columns := columns
  nnz := es.length

theorem gbrBuild_fail {M rows columns : Nat} {offR offC : List Nat} {make : MakeBlock β T} {err : Err} {K : Nat} (hK : K < (runs Element.block es).length) (H : BlkIn M fR fC blockrows bc es)
    (hR : ∀ i, i ≤ blockrows → rd offR i = .ok (fR i)) (hC : ∀ i, i ≤ bc → rd offC i = .ok (fC i))
    (hmake : ∀ k, k < K →
      make (blkRows fR bc es k) (blkCols fC bc es k) (runLoc fR fC bc es k) = .ok (res k))
    (hfail : make (blkRows fR bc es K) (blkCols fC bc es K) (runLoc fR fC bc es K) = .error err)
    (hlen : ∀ k, k < (runs Element.block es).length → (res k).2.2.length = runLen es k)
    (hty : ∀ k, k < (runs Element.block es).length → (res k).1 < 6) :
    gbrBuild M make es rows columns offR blockrows offC bc =
      .error err := by
  have hlenE := H.len
  have hbrM := H.brM
  unfold gbrBuild
  rw [countBlocks_spec M es H.ne H.len H.sortedB, ok_bind]
  have hinit : (⟨0, 0, es, Buf.filled (addM M blockrows 1) 0, Buf.uninit (runs Element.block es).length,
      Buf.uninit (runs Element.block es).length, Buf.filled 6 0, Buf.filled 6 0⟩ : GbrFill β T) =
      gbrState res bc blockrows es 0 := by
    rw [addM_eq (by omega)]
    simp only [gbrState, gbrArr, runStart, List.take_zero, List.map_nil, List.sum_nil, List.range_zero, List.flatten_nil,
      List.nil_append, List.drop_zero, List.countP_nil, List.getElem?_nil, Option.map_none, (runsOK Element.block es).flat]
    rfl
  simp only
  rw [hinit]
  have hrl := runs_length_le Element.block es
  have hlt : ∀ k, k < (runs Element.block es).length → runStart Element.block es k < es.length := by
    intro k hk
    have h1 := runStart_succ Element.block es k hk
    have h2 := runStart_le es (k + 1) hk
    have h3 := List.length_pos_iff.2 (run_mem Element.block es k hk).2.1
    omega
  rw [whileLoop_fail (gbrState res bc blockrows es) K (es.length + 1) (by omega)
    (fun k hk => by simp only [gbrState]; simp [hlt k (by omega)])
    (fun k hk => gbrStep_spec H hR hC hlen hty (by omega) (hmake k hk))
    (gbrStep_fail H hR hC hlen hK hfail), error_bind]

theorem gbrBuild_spec {M rows columns : Nat} {offR offC : List Nat} {make : MakeBlock β T} (H : BlkIn M fR fC blockrows bc es)
    (hR : ∀ i, i ≤ blockrows → rd offR i = .ok (fR i)) (hC : ∀ i, i ≤ bc → rd offC i = .ok (fC i))
    (hmake : ∀ k, k < (runs Element.block es).length →
      make (blkRows fR bc es k) (blkCols fC bc es k) (runLoc fR fC bc es k) = .ok (res k))
    (hlen : ∀ k, k < (runs Element.block es).length → (res k).2.2.length = runLen es k)
    (hty : ∀ k, k < (runs Element.block es).length → (res k).1 < 6) :
    gbrBuild M make es rows columns offR blockrows offC bc =
      .ok (gbrOf res offR offC rows columns blockrows bc es,
        ((List.range (runs Element.block es).length).map (fun j => (res j).2.2)).flatten) := by
  have hlenE := H.len
  have hbrM := H.brM
  unfold gbrBuild
  rw [countBlocks_spec M es H.ne H.len H.sortedB, ok_bind]
  have hinit : (⟨0, 0, es, Buf.filled (addM M blockrows 1) 0, Buf.uninit (runs Element.block es).length,
      Buf.uninit (runs Element.block es).length, Buf.filled 6 0, Buf.filled 6 0⟩ : GbrFill β T) =
      gbrState res bc blockrows es 0 := by
    rw [addM_eq (by omega)]
    simp only [gbrState, gbrArr, runStart, List.take_zero, List.map_nil, List.sum_nil, List.range_zero, List.flatten_nil,
      List.nil_append, List.drop_zero, List.countP_nil, List.getElem?_nil, Option.map_none, (runsOK Element.block es).flat]
    rfl
  simp only
  rw [hinit]
  have hrl := runs_length_le Element.block es
  have hlt : ∀ k, k < (runs Element.block es).length → runStart Element.block es k < es.length := by
    intro k hk
    have h1 := runStart_succ Element.block es k hk
    have h2 := runStart_le es (k + 1) hk
    have h3 := List.length_pos_iff.2 (run_mem Element.block es k hk).2.1
    omega
  rw [whileLoop_closed (gbrState res bc blockrows es) (runs Element.block es).length (es.length + 1) (by omega)
    (fun k hk => by simp only [gbrState]; simp [hlt k hk])
    (fun k hk => gbrStep_spec H hR hC hlen hty hk (hmake k hk))
    (by simp only [gbrState, runStart_length]; simp), ok_bind]
  have hpre := prefixSum_count (M := M) (runKeys Element.block es) (fun κ => κ / bc) (n := blockrows) (len := blockrows + 1) rfl
    (by rw [runKeys_length]; omega)
  simp only [gbrState]
  rw [List.take_of_length_le (by simp), hpre, ok_bind, Buf.get_full (by omega), ok_bind]
  simp only [Nat.le_refl, if_true]
  rw [runKeys_countP_row H, cassert_ok (by simp), ok_bind]
  simp [gbrOf, gbrArr]

end
end Gsb
