import Verif.Props.Bcsr
import Verif.Proof.CsbrTop
import Verif.Spec.Behind
/-
`Coo_to_Csbr` from a Coo2 when the read behind the array of triplets does no harm: the sort, the counters and the blocks
in closed form.
-/
namespace Gsb
variable {T : Type}

/-! ### The sort -/

/-- The search stops at the first place at or after `i` whose row is not below the bound. -/
theorem walk_stops {M : Nat} {L : List (Triplet T)} {offR : List Nat} {br o j : Nat} (hM : L.length < M)
    (ho : rd offR (br + 1) = .ok o) (hj : j < L.length) (hstop : o ≤ L[j].row) (n i : Nat) (hij : i ≤ j) (hn : j < n + i)
    (hlt : ∀ k (h : k < L.length), i ≤ k → k < j → L[k].row < o) :
    whileLoop (fun i => do
        let t ← rd L i
        let o ← rd offR (br + 1)
        .ok (decide (t.row < o))) (fun i => .ok (addM M i 1)) n i = .ok j := by
  induction n generalizing i with
  | zero => omega
  | succ n ih =>
    unfold whileLoop
    simp only [ho] at ih ⊢
    rw [rd_ok (show i < L.length by omega), ok_bind, ok_bind, ok_bind]
    by_cases h : i = j
    · subst h
      rw [if_neg (by simpa using hstop)]
    · rw [if_pos (by simpa using hlt i (by omega) (Nat.le_refl _) (by omega)), ok_bind, addM_eq (by omega)]
      exact ih (i + 1) (by omega) (by omega) (fun k h h1 h2 => hlt k h (by omega) h2)

theorem locate_ok {M : Nat} {ts after : List (Triplet T)} {offR : List Nat} {blockrows rows : Nat} (hM : (ts ++ after).length < M)
    (PR : Partition offR blockrows rows) (hb : 0 < blockrows) (hbM : blockrows + 1 < M) (hall : ∀ t ∈ ts, t.row < rows)
    (hs : ts.Pairwise (fun a b => a.row ≤ b.row)) (B : Behind offR blockrows rows ts after) :
    ∃ brp, locateBlockrows M ts after offR blockrows = .ok brp ∧ brp.len = blockrows + 1 ∧
      ∀ i, i ≤ blockrows → brp.get i = .ok (ts.countP (fun e => decide (e.row < offF offR i))) := by
  set c : Nat → Nat := fun i => ts.countP (fun e => decide (e.row < offF offR i)) with hc
  have hcl : ∀ i, c i ≤ ts.length := fun i => List.countP_le_length
  have hc0 : c 0 = 0 := by
    have : offF offR 0 = 0 := by have := PR.first; simp [offF, this]
    simp [hc, this]
  have hcn : c blockrows = ts.length := by
    rw [hc]
    simp only [PR.at_last]
    exact countP_lt_all ts (·.row) rows hall
  -- everything but the last block-row
  have hloop : ∃ s : Nat × Buf Nat, forLoop 0 (blockrows - 1)
      (0, (⟨blockrows + 1, fun k => if k = 0 then some 0 else (Buf.uninit (blockrows + 1) : Buf Nat).dat k⟩ : Buf Nat)) (fun br s => do
        let i ← whileLoop (fun i => do
            let t ← rd (ts ++ after) i
            let o ← rd offR (br + 1)
            .ok (decide (t.row < o))) (fun i => .ok (addM M i 1)) ((ts ++ after).length + 1) s.1
        let brp ← s.2.put (br + 1) i
        .ok (i, brp)) = .ok s ∧
      (s.1 = c (blockrows - 1) ∧ s.2.len = blockrows + 1 ∧ ∀ i, i ≤ blockrows - 1 → s.2.dat i = some (c i)) := by
    refine forLoop_inv (fun n (s : Nat × Buf Nat) => s.1 = c n ∧ s.2.len = blockrows + 1 ∧ ∀ i, i ≤ n → s.2.dat i = some (c i))
      (Nat.zero_le _) ⟨hc0.symm, rfl, ?_⟩ ?_
    · intro i hi
      have : i = 0 := by omega
      subst this
      simp [hc0]
    · rintro n ⟨i, brp⟩ - hn ⟨e1, e2, e3⟩
      simp only at e1 e2 e3
      subst e1
      have hne : ts.length < (ts ++ after).length := by
        obtain ⟨t, ht, -⟩ := B.stops
        have := List.length_pos_of_mem ht
        rw [List.length_append]; omega
      have hcl' : c (n + 1) < (ts ++ after).length := by have := hcl (n + 1); omega
      have hmono : offF offR n ≤ offF offR (n + 1) := PR.mono (by omega) (by omega)
      have hstop : offF offR (n + 1) ≤ (ts ++ after)[c (n + 1)].row := by
        by_cases h : c (n + 1) < ts.length
        · rw [List.getElem_append_left h]
          have := getElem_lt_iff ts (·.row) hs (offF offR (n + 1)) (c (n + 1)) h
          simp only [hc] at this ⊢
          omega
        · have hlast : offF offR (n + 1) ≤ offF offR (blockrows - 1) := PR.mono (by omega) (by omega)
          have hall' : ∀ e ∈ ts, e.row < offF offR (n + 1) := by
            have h' : ts.countP (fun e => decide (e.row < offF offR (n + 1))) = ts.length := by
              have := hcl (n + 1); simp only [hc] at this h; omega
            rw [List.countP_eq_length] at h'
            intro e he
            simpa using h' e he
          rcases B.first _ (PR.get_off (by omega)) with ⟨e, he, h1⟩ | h1
          · have := hall' e he; omega
          · rw [List.getElem_append_right (by omega)]
            have hi : c (n + 1) - ts.length = 0 := by have := hcl (n + 1); omega
            have := h1 _ (by rw [List.head?_eq_getElem?, List.getElem?_eq_getElem (by rw [List.length_append] at hne; omega)])
            simp only [hi]
            omega
      rw [walk_stops hM (PR.rd_ok (n + 1) (by omega)) hcl' hstop _ (c n) (countP_lt_mono ts (·.row) hmono) (by omega) (by
        intro k h h1 h2
        have hk : k < ts.length := by have := hcl (n + 1); omega
        rw [List.getElem_append_left hk]
        exact (getElem_lt_iff ts (·.row) hs (offF offR (n + 1)) k hk).2 h2), ok_bind,
        Buf.put_ok (by show _ < brp.len; omega), ok_bind]
      refine ⟨_, rfl, rfl, e2, ?_⟩
      intro i hi
      simp only
      by_cases h : i = n + 1
      · rw [if_pos h, h]
      · rw [if_neg h]; exact e3 i (by omega)
  obtain ⟨⟨i, brp⟩, h1, h2, h3, h4⟩ := hloop
  simp only at h2 h3 h4
  -- the last block-row: the search ends somewhere
  have hidx : ∃ j, j < (ts ++ after).length ∧ (∀ h : j < (ts ++ after).length, rows ≤ ((ts ++ after)[j]).row) ∧ ts.length ≤ j ∧
      ∀ k (h : k < (ts ++ after).length), k < j → ((ts ++ after)[k]).row < rows := by
    obtain ⟨t, ht, hr⟩ := B.stops
    refine ⟨(ts ++ after).findIdx (fun t => decide (rows ≤ t.row)), ?_, ?_, ?_, ?_⟩
    · exact List.findIdx_lt_length_of_exists ⟨t, List.mem_append_right _ ht, by simpa using hr⟩
    · intro h
      simpa using List.findIdx_getElem (w := h)
    · rw [List.findIdx_append, if_neg]
      · omega
      · intro h
        have h2 := List.findIdx_getElem (w := h)
        have := hall _ (List.getElem_mem h)
        simp at h2
        omega
    · intro k h hk
      have := List.not_of_lt_findIdx hk
      simpa using this
  obtain ⟨j, j1, j2, j3, j4⟩ := hidx
  unfold locateBlockrows
  simp only
  rw [addM_eq hbM, Buf.put_ok (by simp), ok_bind]
  simp only [Buf.uninit_len]
  rw [forLoop_split (mid := blockrows - 1) (Nat.zero_le _) (by omega), h1, ok_bind, forLoop_step (by omega),
    walk_stops (o := rows) hM (by rw [show blockrows - 1 + 1 = blockrows by omega, PR.rd_ok _ (Nat.le_refl _), PR.at_last]) j1 (j2 j1) _ i
      (by rw [h2]; exact Nat.le_trans (hcl _) j3) (by omega) (fun k h _ hk => j4 k h hk), ok_bind,
    Buf.put_ok (by show _ < brp.len; omega), ok_bind, ok_bind, forLoop_empty (by omega), ok_bind, Buf.put_ok (by show _ < brp.len; omega)]
  refine ⟨_, rfl, h3, ?_⟩
  intro i hi
  refine Buf.get_ok (by show i < brp.len; omega) ?_
  simp only
  by_cases h : i = blockrows
  · rw [if_pos h, h]
    exact congrArg some hcn.symm
  · rw [if_neg h, if_neg (by omega), h4 i (by omega)]

theorem ltRow_sorted (ts : List (Triplet T)) : (pssSort ltRow ts).Pairwise (fun a b => a.row ≤ b.row) := by
  have hp : TotalPre (leOf (ltRow (T := T))) := by
    constructor
    · intro a b c h1 h2
      simp only [leOf, ltRow, Bool.not_eq_true', decide_eq_false_iff_not] at *
      omega
    · intro a b
      simp only [leOf, ltRow, Bool.or_eq_true, Bool.not_eq_true', decide_eq_false_iff_not]
      omega
  refine (List.pairwise_mergeSort hp.trans hp.total ts).imp ?_
  intro a b h
  simp only [leOf, ltRow, Bool.not_eq_true', decide_eq_false_iff_not] at h
  omega

/-- The number of the block of an entry. -/
def tKey (offR : List Nat) (blockrows : Nat) (offC : List Nat) (blockcols : Nat) (t : Triplet T) : Nat :=
  blockKey offR blockrows offC blockcols t.row t.col

theorem bidx_range {off : List Nat} {n total : Nat} (P : Partition off n total) {v : Nat} (hv : v < total) :
    InBlockRange off (bidx off n v) v := by
  have := P.bidx_lt hv
  exact ⟨_, _, P.get_off (by omega), P.get_off (by omega), P.bidx_lo hv, P.bidx_hi hv⟩

/-- Below an offset, the number of the block is below. -/
theorem bidx_lt_of {off : List Nat} {n total : Nat} (P : Partition off n total) {v i : Nat} (hv : v < total) (_ : i ≤ n)
    (h : v < offF off i) : bidx off n v < i := by
  by_contra hc
  have h1 := P.bidx_lo hv
  have h2 := P.bidx_lt hv
  have := P.mono (i := i) (j := bidx off n v) (by omega) (by omega)
  omega

theorem le_bidx_of {off : List Nat} {n total : Nat} (P : Partition off n total) {v i : Nat} (hv : v < total) (_ : i ≤ n)
    (h : offF off i ≤ v) : i ≤ bidx off n v := by
  by_contra hc
  have h1 := P.bidx_hi hv
  have := P.mono (i := bidx off n v + 1) (j := i) (by omega) (by omega)
  omega

theorem sortTripletsBlocks_ok {M rows columns : Nat} {stdSort : Nat → Nat → List (Triplet T) → C (List (Triplet T))}
    {ts after : List (Triplet T)} {offR offC : List Nat} {blockrows blockcols : Nat} (PR : Partition offR blockrows rows)
    (PC : Partition offC blockcols columns) (hb : 0 < blockrows) (hM : (ts ++ after).length < M) (hbM : blockrows + 1 < M)
    (hin : InRange ts rows columns) (B : Behind offR blockrows rows ts after) (hsort : SortsByBlockColumn offC stdSort) :
    ∃ ts', sortTripletsBlocks M stdSort ts after offR blockrows = .ok ts' ∧ ts'.Perm ts ∧
      ts'.Pairwise (fun a b => tKey offR blockrows offC blockcols a ≤ tKey offR blockrows offC blockcols b) := by
  have hp : (pssSort ltRow ts).Perm ts := List.mergeSort_perm _ _
  have hs := ltRow_sorted ts
  obtain ⟨brp, h1, h2, h3⟩ := locate_ok (M := M) (ts := pssSort ltRow ts) (after := after) (by
      rw [List.length_append] at hM ⊢; rw [hp.length_eq]; exact hM) PR hb hbM (fun t ht => (hin t (hp.mem_iff.1 ht)).1) hs
      ⟨B.stops, fun o ho => (B.first o ho).imp (fun ⟨e, he, h⟩ => ⟨e, hp.mem_iff.2 he, h⟩) id⟩
  unfold sortTripletsBlocks
  simp only
  rw [h1, ok_bind]
  have hin1 : InRange (pssSort ltRow ts) rows columns := fun t ht => hin t (hp.mem_iff.1 ht)
  clear h1 hM
  generalize pssSort ltRow ts = L at *
  set c : Nat → Nat := fun i => L.countP (fun e => decide (e.row < offF offR i)) with hc
  have hcl : ∀ i, c i ≤ L.length := fun i => List.countP_le_length
  have hcn : c blockrows = L.length := by
    rw [hc]
    simp only [PR.at_last]
    exact countP_lt_all L (·.row) rows (fun t ht => (hin1 t ht).1)
  have hc0 : c 0 = 0 := by
    have : offF offR 0 = 0 := by have := PR.first; simp [offF, this]
    simp [hc, this]
  have := forLoop_inv (lo := 0) (hi := blockrows) (s := L) (f := fun b ts => do
      let lo ← brp.get b
      let hi ← brp.get (b + 1)
      stdSort lo hi ts)
    (fun b l => ∃ A, l = A ++ L.drop (c b) ∧ A.Perm (L.take (c b)) ∧
      A.Pairwise (fun a b => tKey offR blockrows offC blockcols a ≤ tKey offR blockrows offC blockcols b))
    (Nat.zero_le _) ⟨[], by simp [hc0], by simp [hc0], by simp⟩ (by
    rintro b l - hb ⟨A, rfl, hA, hAs⟩
    have hmono : c b ≤ c (b + 1) := countP_lt_mono L (·.row) (PR.mono (by omega) (by omega))
    have hAl : A.length = c b := by rw [hA.length_eq, List.length_take]; have := hcl b; omega
    have hdl : (L.drop (c b)).length = L.length - c b := List.length_drop
    obtain ⟨s, s1, s2, s3⟩ := hsort (A ++ L.drop (c b)) (c b) (c (b + 1)) hmono (by
      rw [List.length_append, hAl, hdl]; have := hcl (b + 1); omega)
    have e1 : (A ++ L.drop (c b)).take (c b) = A := by rw [← hAl, List.take_left']; rfl
    have e2 : (A ++ L.drop (c b)).drop (c (b + 1)) = L.drop (c (b + 1)) := by
      rw [List.drop_append, List.drop_eq_nil_of_le (by omega), List.nil_append, List.drop_drop, hAl]
      congr 1; omega
    have e3 : ((A ++ L.drop (c b)).take (c (b + 1))).drop (c b) = (L.take (c (b + 1))).drop (c b) := by
      rw [List.drop_take, List.drop_left' hAl, List.drop_take]
    rw [e1, e2] at s1
    rw [e3] at s2
    have hsl : ∀ t ∈ s, t ∈ L ∧ offF offR b ≤ t.row ∧ t.row < offF offR (b + 1) := by
      intro t ht
      have ht := s2.mem_iff.1 ht
      rw [List.drop_take] at ht
      obtain ⟨k, hk, rfl⟩ := List.mem_iff_getElem.1 ht
      rw [List.length_take, List.length_drop] at hk
      rw [List.getElem_take, List.getElem_drop]
      have hk2 : c b + k < L.length := by omega
      refine ⟨List.getElem_mem _, ?_, ?_⟩
      · have := getElem_lt_iff L (·.row) hs (offF offR b) (c b + k) hk2
        simp only [hc] at this ⊢
        omega
      · exact (getElem_lt_iff L (·.row) hs (offF offR (b + 1)) (c b + k) hk2).2 (by simp only [hc] at hk ⊢; omega)
    have hAm : ∀ t ∈ A, t ∈ L ∧ t.row < offF offR b := by
      intro t ht
      have ht := hA.mem_iff.1 ht
      obtain ⟨k, hk, rfl⟩ := List.mem_iff_getElem.1 ht
      rw [List.length_take] at hk
      rw [List.getElem_take]
      exact ⟨List.getElem_mem _, (getElem_lt_iff L (·.row) hs (offF offR b) k (by omega)).2 (by simp only [hc] at hk ⊢; omega)⟩
    refine ⟨A ++ s ++ L.drop (c (b + 1)), ?_, A ++ s, rfl, ?_, ?_⟩
    · rw [h3 b (by omega), ok_bind, h3 (b + 1) (by omega), ok_bind, s1]
    · have : L.take (c (b + 1)) = L.take (c b) ++ (L.take (c (b + 1))).drop (c b) := (take_drop_append L hmono).symm
      rw [this]
      exact hA.append s2
    · rw [List.pairwise_append]
      refine ⟨hAs, ?_, ?_⟩
      · refine s3.imp_of_mem ?_
        intro t u ht hu h
        obtain ⟨t1, t2, t3⟩ := hsl t ht
        obtain ⟨u1, u2, u3⟩ := hsl u hu
        have t4 := hin1 t t1
        have u4 := hin1 u u1
        have k1 := bidx_lt_of PR t4.1 (show b + 1 ≤ blockrows by omega) t3
        have k2 := le_bidx_of PR u4.1 (show b ≤ blockrows by omega) u2
        have k3 := le_bidx_of PR t4.1 (show b ≤ blockrows by omega) t2
        have k4 := bidx_lt_of PR u4.1 (show b + 1 ≤ blockrows by omega) u3
        have k5 := h _ _ (bidx_range PC t4.2) (bidx_range PC u4.2)
        have k6 : bidx offR blockrows t.row = bidx offR blockrows u.row := by omega
        unfold tKey blockKey
        rw [k6]
        omega
      · intro t ht u hu
        obtain ⟨t1, t2⟩ := hAm t ht
        obtain ⟨u1, u2, u3⟩ := hsl u hu
        have t4 := hin1 t t1
        have u4 := hin1 u u1
        have k1 := bidx_lt_of PR t4.1 (show b ≤ blockrows by omega) t2
        have k2 := le_bidx_of PR u4.1 (show b ≤ blockrows by omega) u2
        have k3 := PC.bidx_lt t4.2
        have k4 : (bidx offR blockrows t.row + 1) * blockcols ≤ bidx offR blockrows u.row * blockcols :=
          Nat.mul_le_mul_right _ (by omega)
        rw [Nat.add_mul] at k4
        unfold tKey blockKey
        omega)
  obtain ⟨l, l1, A, rfl, l3, l4⟩ := this
  refine ⟨_, l1, ?_, ?_⟩
  · rw [hcn, List.drop_length, List.append_nil]
    rw [hcn, List.take_length] at l3
    exact l3.trans hp
  · rw [hcn, List.drop_length, List.append_nil]; exact l4

/-! ### The counters -/

section
variable {M rows columns : Nat} {ts : List (Triplet T)} {offR offC : List Nat} {blockrows blockcols : Nat}

theorem coo2Count_ok (PR : Partition offR blockrows rows) (PC : Partition offC blockcols columns) (hM : ts.length < M)
    (hbr : blockrows < M) (hbc : blockcols < M) (hg : blockrows * blockcols < M) (hin : InRange ts rows columns) :
    coo2Count M ts offR blockrows offC blockcols = .ok (Buf.full (blockrows * blockcols)
      (fun k => ts.countP (fun t => tKey offR blockrows offC blockcols t == k))) := by
  unfold coo2Count
  rw [mulM_eq hg]
  refine forLoop_closed' (fun i => Buf.full (blockrows * blockcols)
      (fun k => (ts.take i).countP (fun t => tKey offR blockrows offC blockcols t == k))) (Nat.zero_le _) ?_ ?_ ?_
  · simp [Buf.filled, Buf.full]
  · simp
  · intro i _ hi
    have ht := hin _ (List.getElem_mem hi)
    have h1 := PR.bidx_lt ht.1
    have h2 := PC.bidx_lt ht.2
    have h3 := key_lt h1 h2
    have h4 : bidx offR blockrows ts[i].row * blockcols ≤ bidx offR blockrows ts[i].row * blockcols + bidx offC blockcols ts[i].col := by omega
    rw [rd_ok hi, ok_bind, PR.bidx_ok hbr ht.1, ok_bind, PC.bidx_ok hbc ht.2, ok_bind, mulM_eq (by omega), addM_eq (by omega),
      incr_full _ h3 (by
        refine Nat.lt_of_le_of_lt (Nat.add_le_add_right List.countP_le_length 1) ?_
        rw [List.length_take]; omega)]
    congr 2
    funext k
    rw [take_succ_eq hi, List.countP_append, List.countP_singleton]
    by_cases h : k = bidx offR blockrows ts[i].row * blockcols + bidx offC blockcols ts[i].col
    · subst h
      simp [tKey, blockKey]
    · have : (tKey offR blockrows offC blockcols ts[i] == k) = false := by
        simp only [beq_eq_false_iff_ne]; exact fun h' => h h'.symm
      simp [h, this]

/-- How many of the first `b` blocks have entries. -/
def fullBlocks (N : Nat → Nat) (b : Nat) : Nat := ((List.range b).filter (fun c => decide (0 < N c))).length

theorem fullBlocks_le (N : Nat → Nat) (b : Nat) : fullBlocks N b ≤ b := by
  unfold fullBlocks
  refine Nat.le_trans (List.length_filter_le _ _) (by simp)

theorem fullBlocks_succ (N : Nat → Nat) (b : Nat) : fullBlocks N (b + 1) = if N b > 0 then fullBlocks N b + 1 else fullBlocks N b := by
  unfold fullBlocks
  rw [List.range_succ, List.filter_append, List.length_append]
  by_cases h : N b > 0 <;> simp [h]

theorem coo2BlockrowPtr_ok (N : Nat → Nat) (hbr : blockrows + 1 < M) (hg : blockrows * blockcols < M) :
    ∃ brp, coo2BlockrowPtr M (Buf.full (blockrows * blockcols) N) blockrows blockcols =
        .ok (fullBlocks N (blockrows * blockcols), brp) ∧
      ∀ i, i ≤ blockrows → brp.get i = .ok (fullBlocks N (i * blockcols)) := by
  unfold coo2BlockrowPtr
  simp only
  rw [addM_eq hbr, Buf.put_ok (by simp), ok_bind]
  have := forLoop_inv (lo := 0) (hi := blockrows)
    (s := (0, (⟨(Buf.uninit (blockrows + 1) : Buf Nat).len, fun k => if k = 0 then some 0 else (Buf.uninit (blockrows + 1) : Buf Nat).dat k⟩ : Buf Nat)))
    (f := fun i s => do
      let n ← forLoop 0 blockcols s.1 fun j n => do
        let c ← (Buf.full (blockrows * blockcols) N).get (addM M (mulM M i blockcols) j)
        .ok (if c > 0 then addM M n 1 else n)
      let brp ← s.2.put (i + 1) n
      .ok (n, brp))
    (fun i s => s.1 = fullBlocks N (i * blockcols) ∧ s.2.len = blockrows + 1 ∧
      ∀ k, k ≤ i → s.2.dat k = some (fullBlocks N (k * blockcols))) (Nat.zero_le _)
    (by
      refine ⟨by simp [fullBlocks], rfl, ?_⟩
      intro k hk
      have : k = 0 := by omega
      subst this
      simp [fullBlocks]) (by
    rintro i ⟨n, brp⟩ - hi ⟨h1, h2, h3⟩
    simp only at h1 h2 h3
    subst h1
    have hm : (i + 1) * blockcols ≤ blockrows * blockcols := Nat.mul_le_mul_right _ hi
    rw [Nat.add_mul, Nat.one_mul] at hm
    have : forLoop 0 blockcols (fullBlocks N (i * blockcols)) (fun j n => do
        let c ← (Buf.full (blockrows * blockcols) N).get (addM M (mulM M i blockcols) j)
        .ok (if c > 0 then addM M n 1 else n)) = .ok (fullBlocks N ((i + 1) * blockcols)) := by
      refine forLoop_closed' (fun j => fullBlocks N (i * blockcols + j)) (Nat.zero_le _) rfl (by
        rw [Nat.add_mul, Nat.one_mul]) ?_
      intro j _ hj
      have hle := fullBlocks_le N (i * blockcols + j)
      rw [mulM_eq (by omega), addM_eq (by omega), Buf.get_full (by omega), ok_bind, ← Nat.add_assoc, fullBlocks_succ]
      rw [addM_eq (by omega)]
    simp only
    rw [this, ok_bind, Buf.put_ok (by show _ < brp.len; omega), ok_bind]
    refine ⟨_, rfl, rfl, h2, ?_⟩
    intro k hk
    simp only
    by_cases h : k = i + 1
    · rw [if_pos h, h]
    · rw [if_neg h, h3 k (by omega)])
  obtain ⟨⟨n, brp⟩, h1, h2, h3, h4⟩ := this
  simp only at h2 h3 h4
  subst h2
  exact ⟨brp, h1, fun i hi => Buf.get_ok (by omega) (h4 i hi)⟩

end

/-! ### One block -/

theorem runs_append_const {α : Type} (key : α → Nat) (l g : List α) (c : Nat) (hg : ∀ a ∈ g, key a = c) (hne : g ≠ [])
    (hl : ∀ b, l.getLast? = some b → key b ≠ c) : runs key (l ++ g) = runs key l ++ [g] := by
  induction g using List.reverseRecOn with
  | nil => exact absurd rfl hne
  | append_singleton g a ih =>
    by_cases h : g = []
    · subst h
      rw [List.nil_append, runs_new key l a (fun b hb => by rw [hg a (by simp)]; exact hl b hb)]
    · have ih := ih (fun a ha => hg a (by simp [ha])) h
      obtain ⟨t, b, rfl⟩ : ∃ t b, g = t ++ [b] := by
        rcases snoc_cases g with h' | h'
        · exact absurd h' h
        · exact h'
      obtain ⟨G0, g', e1, e2, -, -⟩ := runs_same key (l ++ (t ++ [b])) a b (by rw [← List.append_assoc, List.getLast?_concat])
        (by rw [hg a (by simp), hg b (by simp)])
      rw [← List.append_assoc, e2]
      rw [ih] at e1
      have e3 := List.append_inj' e1 rfl
      obtain ⟨rfl, e4⟩ := e3
      injection e4 with e4
      rw [← e4]

theorem blkBuf_append {α β : Type} {n : Nat} {key : α → Nat} {F : Nat → Nat → List α → β} {G : List (List α)} {g : List α}
    (hn : G.length < n) :
    (blkBuf n key F G).put G.length (F (runKey key g) G.flatten.length g) = .ok (blkBuf n key F (G ++ [g])) := by
  rw [Buf.put_ok (by exact hn)]
  congr 1
  refine Buf.ext' rfl (fun k => ?_)
  simp only [blkBuf]
  by_cases h : k = G.length
  · subst h
    simp [startOf, List.length_flatten]
  · rw [if_neg h]
    rcases Nat.lt_or_gt_of_ne h with h' | h'
    · rw [List.getElem?_append_left h', List.getElem?_eq_getElem h']
      simp only [Option.map_some, startOf, List.take_append_of_le_length (Nat.le_of_lt h')]
    · rw [List.getElem?_eq_none (by omega), List.getElem?_eq_none (by simp; omega)]
      rfl

/-- A run of writes behind what has been written. -/
theorem fill_puts {α : Type} {n k : Nat} (l s : List α) (hk : k < s.length) (hn : l.length + s.length ≤ n) :
    (Buf.mk n (fun i => (l ++ s.take k)[i]?)).put (l.length + k) s[k] = .ok (Buf.mk n (fun i => (l ++ s.take (k + 1))[i]?)) := by
  have := fill_put (l ++ s.take k) (fun a => a) s[k] (i := l.length + k) (n := n) (by simp; omega) (by omega)
  simp only [Option.map_id_fun', id_eq, List.append_assoc] at this
  rw [take_succ_eq hk]
  exact this

theorem coo2Local_ok {M : Nat} {brOff bcOff : Nat} (pre g post : List (Triplet T)) (hM : (pre ++ g ++ post).length < M)
    (hg : ∀ t ∈ g, brOff ≤ t.row ∧ t.row < M ∧ bcOff ≤ t.col ∧ t.col < M) :
    coo2Local M brOff bcOff pre.length g.length (pre ++ g ++ post) =
      .ok (pre ++ g.map (fun t => ⟨t.row - brOff, t.col - bcOff, t.val⟩) ++ post) := by
  unfold coo2Local
  rw [List.length_append, List.length_append] at hM
  refine forLoop_closed' (fun k => pre ++ ((g.take k).map (fun t => (⟨t.row - brOff, t.col - bcOff, t.val⟩ : Triplet T)) ++ g.drop k) ++ post)
    (Nat.zero_le _) (by simp) (by simp) ?_
  intro k _ hk
  have hm := hg _ (List.getElem_mem hk)
  have hi : pre.length + k < (pre ++ ((g.take k).map (fun t => (⟨t.row - brOff, t.col - bcOff, t.val⟩ : Triplet T)) ++ g.drop k) ++ post).length := by
    simp; omega
  have hget : (pre ++ ((g.take k).map (fun t => (⟨t.row - brOff, t.col - bcOff, t.val⟩ : Triplet T)) ++ g.drop k) ++ post)[pre.length + k] = g[k] := by
    rw [List.getElem_append_left (by simp; omega), List.getElem_append_right (by omega), List.getElem_append_right (by simp),
      List.getElem_drop]
    congr 1
    simp; omega
  rw [addM_eq (by omega), rd_ok hi, ok_bind, hget, subM_eq (by omega) (by omega), subM_eq (by omega) (by omega)]
  unfold wr
  rw [if_pos hi]
  congr 1
  rw [List.append_assoc, List.set_append_right _ _ (by omega), Nat.add_sub_cancel_left, List.set_append_left _ _ (by simp; omega),
    List.set_append_right _ _ (by simp), List.length_map, List.length_take, Nat.min_eq_left (Nat.le_of_lt hk), Nat.sub_self,
    List.drop_eq_getElem_cons hk, List.set_cons_zero, take_succ_eq hk]
  simp only [List.map_append, List.append_assoc, List.map_cons, List.map_nil, List.cons_append, List.nil_append]

theorem coo2Csr_ok {M N brSize : Nat} (pre g post : List (Triplet T)) (lc : List Nat) (lv : List T) (hM : g.length < M)
    (hN : pre.length + g.length ≤ N) (hc : lc.length = pre.length) (hv : lv.length = pre.length) (hbs : brSize + 1 < M)
    (hg : ∀ t ∈ g, t.row < brSize) :
    coo2Csr M pre.length g.length brSize (pre ++ g ++ post) ⟨N, fun k => lc[k]?⟩ ⟨N, fun k => lv[k]?⟩ =
      .ok (pre ++ sortTriplets g ++ post, ⟨N, fun k => (lc ++ (sortTriplets g).map (·.col))[k]?⟩,
        ⟨N, fun k => (lv ++ (sortTriplets g).map (·.val))[k]?⟩,
        Buf.full (brSize + 1) (fun k => if k ≤ brSize then (sortTriplets g).countP (fun e => decide (e.row < k))
          else (sortTriplets g).countP (fun e => e.row + 1 == k))) := by
  unfold coo2Csr
  rw [if_neg (by simp)]
  have e1 : ((pre ++ g ++ post).drop pre.length).take g.length = g := by
    rw [List.append_assoc, List.drop_left', List.take_left']; rfl; rfl
  have e2 : (pre ++ g ++ post).take pre.length = pre := by rw [List.append_assoc, List.take_left']; rfl
  have e3 : (pre ++ g ++ post).drop (pre.length + g.length) = post := List.drop_left' (by simp)
  have hp : (sortTriplets g).Perm g := sortTriplets_perm g true
  have hl : (sortTriplets g).length = g.length := hp.length_eq
  simp only [e1, e2, e3]
  generalize sortTriplets g = s at *
  rw [forLoop_closed' (fun k => ((⟨N, fun i => (lc ++ (s.map (·.col)).take k)[i]?⟩ : Buf Nat), (⟨N, fun i => (lv ++ (s.map (·.val)).take k)[i]?⟩ : Buf T),
      Buf.full (brSize + 1) (fun i => (s.take k).countP (fun e => e.row + 1 == i)))) (Nat.zero_le _) ?_ rfl, ok_bind]
  · simp only [← hl]
    rw [List.take_length, prefixSum_count s (fun e => e.row) rfl (by omega), ok_bind, Buf.get_full (by omega), if_pos (Nat.le_refl _), ok_bind,
      countP_lt_all s (fun e => e.row) brSize (fun t ht => hg t (hp.mem_iff.1 ht)), cassert_ok (by simp), ok_bind]
    congr 6 <;> (rw [List.take_of_length_le (by simp)])
  · intro k _ hk
    rw [← hl] at hk
    have hr := hg _ (hp.mem_iff.1 (List.getElem_mem hk))
    have f1 := fill_puts (n := N) lc (s.map (·.col)) (k := k) (by simpa using hk) (by simp; omega)
    have f2 := fill_puts (n := N) lv (s.map (·.val)) (k := k) (by simpa using hk) (by simp; omega)
    simp only [List.getElem_map] at f1 f2
    rw [hc] at f1
    rw [hv] at f2
    have f3 := incr_count (M := M) (s.take k) (fun e => e.row) s[k] (len := brSize + 1) (by omega) (by rw [List.length_take]; omega)
    rw [rd_ok hk, ok_bind]
    simp only
    rw [f1, ok_bind, f2, ok_bind, addM_eq (by omega), f3, ok_bind, take_succ_eq hk]
  · rw [addM_eq (by omega)]
    simp [Buf.filled, Buf.full]

/-! ### All blocks -/

section
variable (K : Triplet T → Nat) (L : List (Triplet T))

/-- The elements of block `c`, by rows. -/
def grpOf (c : Nat) : List (Element T) :=
  (sortTriplets (L.filter (fun t => K t == c))).map (fun t => ⟨t.row, t.col, t.val, K t⟩)

/-- The elements of the first `b` blocks. -/
def firstBlocks (b : Nat) : List (Element T) := (List.range b).flatMap (grpOf K L)

variable {K L}

theorem grpOf_mem {c : Nat} {e : Element T} (he : e ∈ grpOf K L c) :
    e.block = c ∧ (⟨e.row, e.col, e.val⟩ : Triplet T) ∈ L ∧ K ⟨e.row, e.col, e.val⟩ = c := by
  obtain ⟨t, ht, rfl⟩ := List.mem_map.1 he
  have ht := mem_sortTriplets.1 ht
  rw [List.mem_filter, beq_iff_eq] at ht
  exact ⟨ht.2, ht.1, ht.2⟩

theorem firstBlocks_succ (b : Nat) : firstBlocks K L (b + 1) = firstBlocks K L b ++ grpOf K L b := by
  simp [firstBlocks, List.range_succ]

theorem firstBlocks_mem {b : Nat} {e : Element T} (he : e ∈ firstBlocks K L b) :
    e.block < b ∧ (⟨e.row, e.col, e.val⟩ : Triplet T) ∈ L ∧ K ⟨e.row, e.col, e.val⟩ = e.block := by
  obtain ⟨c, hc, he⟩ := List.mem_flatMap.1 he
  obtain ⟨h1, h2, h3⟩ := grpOf_mem he
  rw [List.mem_range] at hc
  exact ⟨by omega, h2, by omega⟩

theorem grpOf_length (c : Nat) : (grpOf K L c).length = L.countP (fun t => K t == c) := by
  unfold grpOf
  rw [List.length_map, length_sortTriplets, List.countP_eq_length_filter]

theorem runs_firstBlocks (b : Nat) (h : grpOf K L b ≠ []) :
    runs Element.block (firstBlocks K L (b + 1)) = runs Element.block (firstBlocks K L b) ++ [grpOf K L b] := by
  rw [firstBlocks_succ]
  refine runs_append_const _ _ _ b (fun e he => (grpOf_mem he).1) h ?_
  intro e he
  have := (firstBlocks_mem (List.mem_of_getLast? he)).1
  omega

theorem runKey_grpOf (b : Nat) (h : grpOf K L b ≠ []) : runKey Element.block (grpOf K L b) = b := by
  cases hg : grpOf K L b with
  | nil => exact absurd hg h
  | cons e t =>
    have : e ∈ grpOf K L b := by rw [hg]; simp
    simpa [runKey] using (grpOf_mem this).1

theorem runKeys_firstBlocks (b : Nat) :
    runKeys Element.block (firstBlocks K L b) = (List.range b).filter (fun c => decide (0 < L.countP (fun t => K t == c))) := by
  induction b with
  | zero => simp [firstBlocks, runKeys, runs]
  | succ b ih =>
    rw [List.range_succ, List.filter_append, ← ih]
    by_cases h : grpOf K L b = []
    · have h0 : L.countP (fun t => K t == b) = 0 := by rw [← grpOf_length, h]; rfl
      rw [firstBlocks_succ, h, List.append_nil, List.filter_singleton, h0]
      simp
    · have h0 : 0 < L.countP (fun t => K t == b) := by rw [← grpOf_length]; exact List.length_pos_iff.2 h
      unfold runKeys
      rw [runs_firstBlocks b h, List.map_append, List.filter_singleton, decide_eq_true h0, cond_true,
        List.map_singleton, runKey_grpOf b h]

theorem runs_firstBlocks_length (b : Nat) :
    (runs Element.block (firstBlocks K L b)).length = fullBlocks (fun c => L.countP (fun t => K t == c)) b := by
  rw [← runKeys_length, runKeys_firstBlocks]
  rfl

theorem filter_ge_split (hs : L.Pairwise (fun a b => K a ≤ K b)) (b : Nat) :
    L.filter (fun t => decide (b ≤ K t)) = L.filter (fun t => K t == b) ++ L.filter (fun t => decide (b + 1 ≤ K t)) := by
  induction L with
  | nil => rfl
  | cons a l ih =>
    rw [List.pairwise_cons] at hs
    have ih := ih hs.2
    by_cases h1 : K a = b
    · simp only [List.filter_cons, h1, Nat.le_refl, decide_true, if_true, beq_self_eq_true, ih]
      rw [if_neg (by simp)]
      rfl
    · by_cases h2 : b < K a
      · have h3 : l.filter (fun t => K t == b) = [] := by
          rw [List.filter_eq_nil_iff]
          intro t ht
          have := hs.1 t ht
          simp; omega
        simp only [List.filter_cons]
        rw [if_pos (by simp; omega), if_neg (by simpa using h1), if_pos (by simp; omega), h3, ih, h3]
        rfl
      · simp only [List.filter_cons]
        rw [if_neg (by simp; omega), if_neg (by simpa using h1), if_neg (by simp; omega), ih]

/-- What has been done and what is left make up the matrix. -/
theorem firstBlocks_perm (hs : L.Pairwise (fun a b => K a ≤ K b)) (b : Nat) :
    ((firstBlocks K L b).map (fun e => (⟨e.row, e.col, e.val⟩ : Triplet T)) ++ L.filter (fun t => decide (b ≤ K t))).Perm L := by
  induction b with
  | zero => simp [firstBlocks]
  | succ b ih =>
    refine List.Perm.trans ?_ ih
    rw [firstBlocks_succ, List.map_append, List.append_assoc, filter_ge_split hs b]
    refine List.Perm.append_left _ (List.Perm.append_right _ ?_)
    unfold grpOf
    rw [List.map_map]
    have : ((fun e : Element T => (⟨e.row, e.col, e.val⟩ : Triplet T)) ∘ fun t : Triplet T => (⟨t.row, t.col, t.val, K t⟩ : Element T)) = id := rfl
    rw [this, List.map_id]
    exact sortTriplets_perm _ true

theorem firstBlocks_all (hs : L.Pairwise (fun a b => K a ≤ K b)) {g : Nat} (hg : ∀ t ∈ L, K t < g) :
    (ents (firstBlocks K L g)).Perm L := by
  have := firstBlocks_perm hs g
  rw [List.filter_eq_nil_iff.2 (fun t ht => by have := hg t ht; simp; omega), List.append_nil] at this
  exact this

/-- Sorting the local coordinates is sorting the block. -/
theorem sortTriplets_local {g : List (Triplet T)} {ro co : Nat} (h : ∀ t ∈ g, ro ≤ t.row ∧ co ≤ t.col) :
    sortTriplets (g.map (fun t => (⟨t.row - ro, t.col - co, t.val⟩ : Triplet T))) =
      (sortTriplets g).map (fun t => (⟨t.row - ro, t.col - co, t.val⟩ : Triplet T)) := by
  unfold sortTriplets pssSort
  rw [if_pos rfl, if_pos rfl, List.map_mergeSort]
  intro a ha b hb
  have h1 := h a ha
  have h2 := h b hb
  rw [leOf_ltRowMajor, leOf_ltRowMajor]
  rw [decide_eq_decide]
  show (a.row < b.row ∨ a.row = b.row ∧ a.col ≤ b.col) ↔
    (a.row - ro < b.row - ro ∨ a.row - ro = b.row - ro ∧ a.col - co ≤ b.col - co)
  omega

end

section
variable {M rows columns : Nat} {L : List (Triplet T)} {offR offC : List Nat} {blockrows blockcols : Nat}

/-- The state of the main loop after `b` blocks of the grid. -/
def coo2State (K : Triplet T → Nat) (fR fC : Nat → Nat) (bc n : Nat) (L : List (Triplet T)) (b : Nat) : Coo2Fill T :=
  ⟨(firstBlocks K L b).map (locEnt fR fC bc) ++ L.filter (fun t => decide (b ≤ K t)),
    (runs Element.block (firstBlocks K L b)).length, (firstBlocks K L b).length,
    ⟨n, fun k => ((runKeys Element.block (firstBlocks K L b))[k]?).map (· % bc)⟩,
    blkBuf n Element.block (ptrRow fR bc) (runs Element.block (firstBlocks K L b)),
    ⟨L.length, fun k => ((firstBlocks K L b)[k]?).map (fun e => e.col - fC (e.block % bc))⟩,
    ⟨L.length, fun k => ((firstBlocks K L b)[k]?).map (fun e => e.val)⟩⟩

theorem coo2Block_ok (PR : Partition offR blockrows rows) (PC : Partition offC blockcols columns) (hM : L.length < M)
    (hg : blockrows * blockcols < M) (hrows : rows + 1 < M) (hcols : columns < M) (hin : InRange L rows columns)
    (hs : L.Pairwise (fun a b => tKey offR blockrows offC blockcols a ≤ tKey offR blockrows offC blockcols b))
    {i j : Nat} (hi : i < blockrows) (hj : j < blockcols) :
    coo2Block M offC blockcols (Buf.full (blockrows * blockcols) (fun k => L.countP (fun t => tKey offR blockrows offC blockcols t == k)))
      i (offF offR i) (offF offR (i + 1) - offF offR i) j
      (coo2State (tKey offR blockrows offC blockcols) (offF offR) (offF offC) blockcols
        (fullBlocks (fun c => L.countP (fun t => tKey offR blockrows offC blockcols t == c)) (blockrows * blockcols)) L (i * blockcols + j)) =
      .ok (coo2State (tKey offR blockrows offC blockcols) (offF offR) (offF offC) blockcols
        (fullBlocks (fun c => L.countP (fun t => tKey offR blockrows offC blockcols t == c)) (blockrows * blockcols)) L (i * blockcols + (j + 1))) := by
  set K : Triplet T → Nat := tKey offR blockrows offC blockcols with hK
  set N : Nat → Nat := fun c => L.countP (fun t => K t == c) with hN
  set n := fullBlocks N (blockrows * blockcols) with hn
  set b := i * blockcols + j with hb
  have hbg : b < blockrows * blockcols := key_lt hi hj
  have hmul : i * blockcols ≤ b := by omega
  have hsplit := filter_ge_split hs b
  unfold coo2Block
  rw [mulM_eq (by omega), addM_eq (by omega), Buf.get_full hbg, ok_bind, ← Nat.add_assoc, ← hb]
  show (if N b > 0 then _ else _) = _
  by_cases h0 : N b > 0
  · rw [if_pos h0]
    have hlen : (grpOf K L b).length = N b := grpOf_length b
    have hne : grpOf K L b ≠ [] := by intro h; rw [h] at hlen; simp at hlen; omega
    have hruns := runs_firstBlocks (K := K) (L := L) b hne
    have hkeys : runKeys Element.block (firstBlocks K L (b + 1)) = runKeys Element.block (firstBlocks K L b) ++ [b] := by
      unfold runKeys
      rw [hruns, List.map_append, List.map_singleton, runKey_grpOf b hne]
    have hlt : (runs Element.block (firstBlocks K L b)).length < n := by
      rw [runs_firstBlocks_length]
      have h1 := fullBlocks_succ N b
      rw [if_pos h0] at h1
      have h2 : fullBlocks N (b + 1) ≤ fullBlocks N (blockrows * blockcols) := by
        unfold fullBlocks
        have : (List.range (b + 1)).Sublist (List.range (blockrows * blockcols)) := by
          rw [List.range_sublist]; omega
        exact (this.filter _).length_le
      show fullBlocks N b < _
      omega
    -- the triplets of this block
    have hgm : ∀ t ∈ L.filter (fun t => K t == b), (offF offR i ≤ t.row ∧ t.row < offF offR (i + 1)) ∧
        (offF offC j ≤ t.col ∧ t.col < offF offC (j + 1)) ∧ t.row < rows ∧ t.col < columns := by
      intro t ht
      rw [List.mem_filter, beq_iff_eq] at ht
      have hr := hin t ht.1
      have h2 : bidx offR blockrows t.row * blockcols + bidx offC blockcols t.col = i * blockcols + j := ht.2
      have h3 := PC.bidx_lt hr.2
      have e1 : bidx offR blockrows t.row = i := by
        have := congrArg (· / blockcols) h2
        simp only [key_div h3, key_div hj] at this
        exact this
      have e2 : bidx offC blockcols t.col = j := by
        have := congrArg (· % blockcols) h2
        simp only [key_mod h3, key_mod hj] at this
        exact this
      have a1 := PR.bidx_lo hr.1
      have a2 := PR.bidx_hi hr.1
      have a3 := PC.bidx_lo hr.2
      have a4 := PC.bidx_hi hr.2
      rw [e1] at a1 a2
      rw [e2] at a3 a4
      exact ⟨⟨a1, a2⟩, ⟨a3, a4⟩, hr⟩
    have hgl : (L.filter (fun t => K t == b)).length = N b := (List.countP_eq_length_filter).symm
    have htot : (firstBlocks K L b).length + (L.filter (fun t => decide (b ≤ K t))).length = L.length := by
      have := (firstBlocks_perm hs b).length_eq
      rw [List.length_append, List.length_map] at this
      exact this
    rw [hsplit, List.length_append] at htot
    have hbs : offF offR (i + 1) ≤ rows := PR.le_total (by omega)
    rw [PC.rd_ok j (by omega), ok_bind, PC.rd_ok (j + 1) (by omega), ok_bind]
    simp only [coo2State]
    have hput : (⟨n, fun k => ((runKeys Element.block (firstBlocks K L b))[k]?).map (· % blockcols)⟩ : Buf Nat).put
        (runs Element.block (firstBlocks K L b)).length j =
        .ok ⟨n, fun k => ((runKeys Element.block (firstBlocks K L b) ++ [b])[k]?).map (· % blockcols)⟩ := by
      have := fill_put (runKeys Element.block (firstBlocks K L b)) (· % blockcols) b (i := (runs Element.block (firstBlocks K L b)).length)
        (by simp) hlt
      simp only [hb, key_mod hj] at this
      exact this
    have hloc := coo2Local_ok (M := M) (brOff := offF offR i) (bcOff := offF offC j)
      ((firstBlocks K L b).map (locEnt (offF offR) (offF offC) blockcols)) (L.filter (fun t => K t == b))
      (L.filter (fun t => decide (b + 1 ≤ K t))) (by simp only [List.length_append, List.length_map]; omega)
      (fun t ht => by have := hgm t ht; omega)
    rw [List.length_map, hgl] at hloc
    have hcsr := coo2Csr_ok (M := M) (N := L.length) (brSize := offF offR (i + 1) - offF offR i)
      ((firstBlocks K L b).map (locEnt (offF offR) (offF offC) blockcols))
      ((L.filter (fun t => K t == b)).map (fun t => (⟨t.row - offF offR i, t.col - offF offC j, t.val⟩ : Triplet T)))
      (L.filter (fun t => decide (b + 1 ≤ K t)))
      ((firstBlocks K L b).map (fun e => e.col - offF offC (e.block % blockcols))) ((firstBlocks K L b).map (fun e => e.val))
      (by rw [List.length_map]; omega) (by rw [List.length_map, List.length_map]; omega) (by simp) (by simp) (by omega)
      (by
        intro t ht
        obtain ⟨u, hu, rfl⟩ := List.mem_map.1 ht
        have := hgm u hu
        show u.row - offF offR i < _
        omega)
    rw [List.length_map, List.length_map, hgl, sortTriplets_local (fun t ht => by have := hgm t ht; omega)] at hcsr
    -- in terms of elements
    have hdm : ∀ e ∈ grpOf K L b, e.block / blockcols = i ∧ e.block % blockcols = j := by
      intro e he
      rw [(grpOf_mem he).1, hb, key_div hj, key_mod hj]
      exact ⟨rfl, rfl⟩
    have hmapg : ∀ {β : Type} (F : Element T → β) (G : Triplet T → β), (∀ e ∈ grpOf K L b, F e = G ⟨e.row, e.col, e.val⟩) →
        (grpOf K L b).map F = (sortTriplets (L.filter (fun t => K t == b))).map G := by
      intro β F G h
      have : (grpOf K L b).map F = (grpOf K L b).map (fun e => G ⟨e.row, e.col, e.val⟩) := List.map_congr_left h
      rw [this]
      unfold grpOf
      rw [List.map_map]
      rfl
    have m1 := hmapg (locEnt (offF offR) (offF offC) blockcols) (fun t => (⟨t.row - offF offR i, t.col - offF offC j, t.val⟩ : Triplet T))
      (fun e he => by simp only [locEnt, hdm e he])
    have m2 := hmapg (fun e => e.col - offF offC (e.block % blockcols)) (fun t => t.col - offF offC j) (fun e he => by simp only [hdm e he])
    have m3 := hmapg (fun e => e.val) (fun t => t.val) (fun e he => rfl)
    have hrow : (⟨offF offR (i + 1) - offF offR i, (firstBlocks K L b).length,
        Buf.full (offF offR (i + 1) - offF offR i + 1) (fun k => if k ≤ offF offR (i + 1) - offF offR i then
          ((sortTriplets (L.filter (fun t => K t == b))).map (fun t => (⟨t.row - offF offR i, t.col - offF offC j, t.val⟩ : Triplet T))).countP
            (fun e => decide (e.row < k))
          else ((sortTriplets (L.filter (fun t => K t == b))).map (fun t => (⟨t.row - offF offR i, t.col - offF offC j, t.val⟩ : Triplet T))).countP
            (fun e => e.row + 1 == k))⟩ : CsbrBlock) =
        ptrRow (offF offR) blockcols (runKey Element.block (grpOf K L b)) (runs Element.block (firstBlocks K L b)).flatten.length (grpOf K L b) := by
      have hbd : b / blockcols = i := by rw [hb, key_div hj]
      rw [runKey_grpOf b hne, (runsOK Element.block _).flat, ← m1]
      unfold ptrRow
      simp only [hbd, List.countP_map]
      rfl
    have hfl : (runs Element.block (firstBlocks K L b)).flatten.length = (firstBlocks K L b).length := by rw [(runsOK Element.block _).flat]
    have e1 : ∀ {β : Type} (F : Element T → β), (fun k : Nat => ((firstBlocks K L b)[k]?).map F) = fun k : Nat => ((firstBlocks K L b).map F)[k]? := by
      intro β F; funext k; rw [List.getElem?_map]
    have e2 : ∀ {β : Type} (F : Element T → β), (fun k : Nat => ((firstBlocks K L (b + 1))[k]?).map F) = fun k : Nat => ((firstBlocks K L (b + 1)).map F)[k]? := by
      intro β F; funext k; rw [List.getElem?_map]
    have hrl := runs_length_le Element.block (firstBlocks K L b)
    simp only [e1, e2]
    have hnb : (L.countP (fun t => K t == b)) = N b := rfl
    rw [hput, ok_bind, hsplit, ← List.append_assoc]
    rw [hloc, ok_bind, hcsr, ok_bind]
    simp only
    rw [hrow, blkBuf_append hlt, ok_bind, addM_eq (by omega), addM_eq (by omega)]
    rw [hkeys, hruns, firstBlocks_succ]
    simp only [List.map_append, List.length_append, hlen, m1, m2, m3, List.map_map]
    rfl
  · rw [if_neg h0]
    have hnil : grpOf K L b = [] := by
      have := grpOf_length (K := K) (L := L) b
      exact List.length_eq_zero_iff.1 (by rw [this]; show N b = 0; omega)
    have hnil2 : L.filter (fun t => K t == b) = [] := by
      have : L.countP (fun t => K t == b) = 0 := by show N b = 0; omega
      rw [List.countP_eq_length_filter] at this
      exact List.length_eq_zero_iff.1 this
    unfold coo2State
    rw [firstBlocks_succ, hnil, List.append_nil, hsplit, hnil2, List.nil_append]

end

end Gsb
