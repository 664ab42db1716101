import Verif.Proof.Csbr2
/-
CSBR3: constant square blocks, indices stored in a small type.
-/
namespace Gsb
variable {T : Type}

section csbr3
variable {M S bs : Nat} {blockrows blockcols rows columns : Nat} {es : List (Element T)}

/-- `block_ptr` with the given groups seen so far out of `n`, last cell `len`. -/
def ptr3 (n len : Nat) (G : List (List (Element T))) : Buf Nat :=
  ⟨n + 1, fun k => if k = n then some len else if k < G.length then some (startOf G k) else none⟩

/-- The state of the copying loop after `i` elements. -/
def csbr3State (S bs bc blockrows n : Nat) (es : List (Element T)) (i : Nat) : Csbr3Fill T :=
  ⟨(es.take i).getLast?.map (fun e => curOf (· * bs) (· * bs) bc e.block),
    ptr3 n es.length (runs Element.block (es.take i)),
    ⟨n, fun k => ((runKeys Element.block (es.take i))[k]?).map (· % bc)⟩,
    Buf.full (blockrows + 1) (fun k => (runKeys Element.block (es.take i)).countP (fun κ => κ / bc + 1 == k)),
    ⟨es.length, fun k => ((es.take i)[k]?).map (fun e => (e.row - e.block / bc * bs) % S)⟩,
    ⟨es.length, fun k => ((es.take i)[k]?).map (fun e => (e.col - e.block % bc * bs) % S)⟩,
    ⟨es.length, fun k => ((es.take i)[k]?).map (fun e => e.val)⟩⟩

theorem csbr3Element_ok (H : BlkIn M (· * bs) (· * bs) blockrows blockcols es)
    {i bi n : Nat} {s : Csbr3Fill T}
    (hi : i < es.length) (hcur : s.cur = some (curOf (· * bs) (· * bs) blockcols es[i].block))
    (hri : s.rowInd = ⟨n, fun k => ((es.take i)[k]?).map (fun e => (e.row - e.block / blockcols * bs) % S)⟩)
    (hci : s.colInd = ⟨n, fun k => ((es.take i)[k]?).map (fun e => (e.col - e.block % blockcols * bs) % S)⟩)
    (hv : s.val = ⟨n, fun k => ((es.take i)[k]?).map (fun e => e.val)⟩) (hn : i < n) :
    csbr3Element M S es i bi s = .ok { s with
      rowInd := ⟨n, fun k => ((es.take (i + 1))[k]?).map (fun e => (e.row - e.block / blockcols * bs) % S)⟩
      colInd := ⟨n, fun k => ((es.take (i + 1))[k]?).map (fun e => (e.col - e.block % blockcols * bs) % S)⟩
      val := ⟨n, fun k => ((es.take (i + 1))[k]?).map (fun e => e.val)⟩ } := by
  have he := List.getElem_mem hi
  have h1 := H.inR _ he
  have h2 := H.inC _ he
  have h3 := H.maxR _ he
  have h4 := H.maxC _ he
  unfold csbr3Element
  rw [rd_ok hi, ok_bind, hcur]
  simp only [needCur, ok_bind]
  rw [assertInBlock_ok _ _ blockcols H he, ok_bind]
  simp only [curOf]
  rw [subM_eq (by omega) h1.1, subM_eq (by omega) h2.1, hri, hci, hv]
  rw [fill_put (es.take i) (fun e : Element T => (e.row - e.block / blockcols * bs) % S) es[i] (by simp; omega) hn, ok_bind,
    fill_put (es.take i) (fun e : Element T => (e.col - e.block % blockcols * bs) % S) es[i] (by simp; omega) hn, ok_bind,
    fill_put (es.take i) (fun e : Element T => e.val) es[i] (by simp; omega) hn, ok_bind, take_succ_eq hi]

theorem curOf_const (κ : Nat) : curOf (· * bs) (· * bs) blockcols κ =
    ⟨κ / blockcols * bs, κ % blockcols * bs, bs, bs⟩ := by
  have h : ∀ a : Nat, (a + 1) * bs - a * bs = bs := by intro a; rw [Nat.add_mul]; omega
  simp [curOf, h]

theorem csbr3Scan_ok (H : BlkIn M (· * bs) (· * bs) blockrows blockcols es) :
    ∃ r : Scan (Csbr3Fill T), forLoop 0 es.length (⟨M - 1, M - 1,
        csbr3State S bs blockcols blockrows (runs Element.block es).length es 0⟩ : Scan (Csbr3Fill T))
      (scanStep M (elemBlock es) (csbr3NewBlock M bs blockcols) (csbr3Element M S es)) = .ok r ∧
      r.st = csbr3State S bs blockcols blockrows (runs Element.block es).length es es.length := by
  have hlen := H.len
  refine scan_spec es Element.block _ _ _ H.len H.sent (elemBlock_ok es)
    (csbr3State S bs blockcols blockrows (runs Element.block es).length es) ?_ ?_
  · intro i hi hnew
    have he := List.getElem_mem hi
    have h1 := H.inR _ he
    have h2 := H.inC _ he
    have h3 := H.maxR _ he
    have h4 := H.maxC _ he
    have h5 := H.row _ he
    have h6 := H.brM
    have hrn := runs_new Element.block _ _ hnew
    have hkn := runKeys_new Element.block _ _ hnew
    have hGn : (runs Element.block (es.take i)).length < (runs Element.block es).length := by
      have h := runs_take_le Element.block es (i + 1)
      rw [take_succ_eq hi, hrn] at h; simp at h; omega
    have hrl := runs_length_le Element.block (es.take i)
    have hil : (es.take i).length = i := by simp; omega
    have hinc := incr_count (M := M) (runKeys Element.block (es.take i)) (fun κ => κ / blockcols) es[i].block
      (len := blockrows + 1) (by omega) (by rw [runKeys_length]; omega)
    have hptr : (ptr3 (runs Element.block es).length es.length (runs Element.block (es.take i))).put
        (runs Element.block (es.take i)).length i =
        .ok (ptr3 (runs Element.block es).length es.length (runs Element.block (es.take i) ++ [[es[i]]])) := by
      have hfl := runs_flatten_length Element.block es (show i ≤ es.length by omega)
      rw [← startOf_length] at hfl
      generalize runs Element.block (es.take i) = G at *
      rw [Buf.put_ok (by simp [ptr3]; omega)]
      congr 1
      refine Buf.ext' rfl (fun k => ?_)
      simp only [ptr3, List.length_append, List.length_singleton]
      by_cases hk : k = G.length
      · subst hk
        rw [if_pos rfl, if_neg (by omega), if_pos (by omega)]
        congr 1
        refine hfl.symm.trans ?_
        unfold startOf
        rw [List.take_append_of_le_length (Nat.le_refl _)]
      · rw [if_neg hk]
        by_cases hkn : k = (runs Element.block es).length
        · simp [hkn]
        · rw [if_neg hkn, if_neg hkn]
          by_cases hlt : k < G.length
          · rw [if_pos hlt, if_pos (by omega)]; unfold startOf
            rw [List.take_append_of_le_length (by omega)]
          · rw [if_neg hlt, if_neg (by omega)]
    refine ⟨⟨some (curOf (· * bs) (· * bs) blockcols es[i].block),
      ptr3 (runs Element.block es).length es.length (runs Element.block (es.take i) ++ [[es[i]]]),
      ⟨(runs Element.block es).length, fun k => ((runKeys Element.block (es.take i) ++ [es[i].block])[k]?).map (· % blockcols)⟩,
      Buf.full (blockrows + 1) (fun k => (runKeys Element.block (es.take i) ++ [es[i].block]).countP (fun κ => κ / blockcols + 1 == k)),
      ⟨es.length, fun k => ((es.take i)[k]?).map (fun e => (e.row - e.block / blockcols * bs) % S)⟩,
      ⟨es.length, fun k => ((es.take i)[k]?).map (fun e => (e.col - e.block % blockcols * bs) % S)⟩,
      ⟨es.length, fun k => ((es.take i)[k]?).map (fun e => e.val)⟩⟩, ?_, ?_⟩
    · unfold csbr3NewBlock
      rw [cdiv_ok H.bcPos, ok_bind, cmod_ok H.bcPos, ok_bind]
      simp only [csbr3State]
      rw [hptr, ok_bind, fill_put (runKeys Element.block (es.take i)) (· % blockcols) es[i].block (by simp) hGn, ok_bind,
        addM_eq (by omega), hinc, ok_bind, mulM_eq (by omega), mulM_eq (by omega), curOf_const]
    · rw [csbr3Element_ok (S := S) H (n := es.length) hi rfl rfl rfl rfl hi]
      simp only [csbr3State, getLast?_take hi, Option.map_some]
      rw [take_succ_eq hi, hkn, hrn]
  · intro i hi b hb hkey
    obtain ⟨G0, g, e1, e2, hgb, hg⟩ := runs_same Element.block _ es[i] b hb hkey
    have hks := runKeys_same Element.block _ es[i] b hb hkey
    have hptr : ptr3 (runs Element.block es).length es.length (G0 ++ [g]) =
        ptr3 (runs Element.block es).length es.length (G0 ++ [g ++ [es[i]]]) := by
      refine Buf.ext' rfl (fun k => ?_)
      simp only [ptr3, List.length_append, List.length_singleton]
      by_cases hk : k < G0.length + 1
      · have : startOf (G0 ++ [g]) k = startOf (G0 ++ [g ++ [es[i]]]) k := by
          unfold startOf
          rw [List.take_append_of_le_length (by omega), List.take_append_of_le_length (by omega)]
        rw [this]
      · simp [hk]
    rw [csbr3Element_ok (S := S) H (n := es.length) hi (by simp [csbr3State, hb, hkey]) rfl rfl rfl hi]
    simp only [csbr3State, getLast?_take hi, Option.map_some, hb, hkey]
    rw [take_succ_eq hi, hks, e1, e2, hptr]

/-- The constructed matrix. -/
def csbr3Of (S bs rows columns blockrows blockcols : Nat) (es : List (Element T)) : Csbr3 T where
  blockPtr := ptr3 (runs Element.block es).length es.length (runs Element.block es)
  blockcolInd := ⟨(runs Element.block es).length, fun k => ((runKeys Element.block es)[k]?).map (· % blockcols)⟩
  blockrowPtr := Buf.full (blockrows + 1) (fun k => if k ≤ blockrows then
      (runKeys Element.block es).countP (fun κ => decide (κ / blockcols < k))
    else (runKeys Element.block es).countP (fun κ => κ / blockcols + 1 == k))
  blockrows := blockrows
  blockcols := blockcols
  nnzblocks := (runs Element.block es).length
  blockSize := bs
  rows := rows
  columns := columns
  nnz := es.length
  rowInd := ⟨es.length, fun k => (es[k]?).map (fun e => (e.row - e.block / blockcols * bs) % S)⟩
  colInd := ⟨es.length, fun k => (es[k]?).map (fun e => (e.col - e.block % blockcols * bs) % S)⟩
  val := ⟨es.length, fun k => (es[k]?).map (fun e => e.val)⟩

/-- Where the matrix puts an element once its local indices are stored in a type of `S` values. -/
def trunc3 (S bs : Nat) (e : Ent T) : Ent T :=
  ⟨e.row / bs * bs + e.row % bs % S, e.col / bs * bs + e.col % bs % S, e.val⟩

/-- Elements with block ids, sorted. -/
def prepared3 (bs blockcols : Nat) (es : List (Element T)) : List (Element T) :=
  sortElementsBlocks (es.map (withKey (fun r c => r / bs * blockcols + c / bs)))

theorem ceil_lt {n bs v : Nat} (hb : 0 < bs) (hv : v < n) : v / bs < (n + bs - 1) / bs := by
  have : (v + bs) / bs = v / bs + 1 := Nat.add_div_right v hb
  have h2 : (v + bs) / bs ≤ (n + bs - 1) / bs := Nat.div_le_div_right (by omega)
  omega

theorem ceil_le {n bs : Nat} (hb : 0 < bs) (hn : 0 < n) : (n + bs - 1) / bs ≤ n := by
  rw [Nat.div_le_iff_le_mul_add_pred hb]
  have : n ≤ bs * n := Nat.le_mul_of_pos_left n hb
  omega

theorem mem_prepared3 {e : Element T} (he : e ∈ prepared3 bs blockcols es) :
    e.block = e.row / bs * blockcols + e.col / bs ∧ (⟨e.row, e.col, e.val⟩ : Ent T) ∈ ents es := by
  have h := (sortBlocks_perm _).mem_iff.1 he
  obtain ⟨a, ha, rfl⟩ := List.mem_map.1 h
  exact ⟨rfl, List.mem_map.2 ⟨a, ha, rfl⟩⟩

theorem prepared3_length : (prepared3 bs blockcols es).length = es.length := by
  unfold prepared3; rw [(sortBlocks_perm _).length_eq, List.length_map]

theorem prepared3_ents_perm : (ents (prepared3 bs blockcols es)).Perm (ents es) := by
  have h : (ents (prepared3 bs blockcols es)).Perm
      (ents (es.map (withKey (fun r c => r / bs * blockcols + c / bs)))) := (sortBlocks_perm _).map _
  have h2 : ents (es.map (withKey (fun r c => r / bs * blockcols + c / bs))) = ents es := by
    simp only [ents, List.map_map]; rfl
  rwa [h2] at h

theorem prepared3_blkIn (hbs : 0 < bs) (hne : es ≠ []) (hlen : es.length < M)
    (hgrid : (rows + bs - 1) / bs * ((columns + bs - 1) / bs) < M) (hrows : rows + bs < M) (hcols : columns + bs < M)
    (hin : InRange (ents es) rows columns) :
    BlkIn M (· * bs) (· * bs) ((rows + bs - 1) / bs) ((columns + bs - 1) / bs)
      (prepared3 bs ((columns + bs - 1) / bs) es) := by
  have hmem : ∀ e ∈ prepared3 bs ((columns + bs - 1) / bs) es, e.row < rows ∧ e.col < columns := fun e he =>
    hin _ (mem_prepared3 he).2
  obtain ⟨e0, he0⟩ := List.exists_mem_of_ne_nil es hne
  have h0 := hin _ (List.mem_map_of_mem (f := NZ.toEnt) he0)
  have hrp : 0 < rows := by omega
  have hcp : 0 < columns := by omega
  have hbcp : 0 < (columns + bs - 1) / bs := Nat.lt_of_le_of_lt (Nat.zero_le _) (ceil_lt hbs h0.2)
  have hdiv : ∀ e ∈ prepared3 bs ((columns + bs - 1) / bs) es, e.block / ((columns + bs - 1) / bs) = e.row / bs := by
    intro e he
    rw [(mem_prepared3 he).1, key_div (ceil_lt hbs (hmem e he).2)]
  have hmod : ∀ e ∈ prepared3 bs ((columns + bs - 1) / bs) es, e.block % ((columns + bs - 1) / bs) = e.col / bs := by
    intro e he
    rw [(mem_prepared3 he).1, key_mod (ceil_lt hbs (hmem e he).2)]
  have hlt : ∀ v, v / bs * bs ≤ v ∧ v < (v / bs + 1) * bs ∧ (v / bs + 1) * bs ≤ v + bs := by
    intro v
    have h1 := Nat.div_mul_le_self v bs
    have h2 : v < (v / bs + 1) * bs := by
      rw [Nat.mul_comm]; exact Nat.lt_mul_div_succ v hbs
    rw [Nat.add_mul] at h2 ⊢
    omega
  have hcr := ceil_le hbs hrp
  have hcc := ceil_le hbs hcp
  refine ⟨?_, by rw [prepared3_length]; exact hlen, hbcp, ?_, ?_, ?_, ?_, ?_, ?_, by omega, by omega, ?_, ?_⟩
  · intro h
    have := prepared3_length (bs := bs) (blockcols := (columns + bs - 1) / bs) (es := es)
    rw [h] at this
    simp at this
    exact hne (List.length_eq_zero_iff.1 this.symm)
  · intro e he
    have := key_lt (ceil_lt hbs (hmem e he).1) (ceil_lt hbs (hmem e he).2)
    rw [(mem_prepared3 he).1]
    omega
  · intro e he; rw [hdiv e he]; exact ceil_lt hbs (hmem e he).1
  · intro e he; rw [hdiv e he]; exact ⟨(hlt _).1, (hlt _).2.1⟩
  · intro e he; rw [hmod e he]; exact ⟨(hlt _).1, (hlt _).2.1⟩
  · intro e he; rw [hdiv e he]
    have := (hlt e.row).2.2; have := (hmem e he).1; omega
  · intro e he; rw [hmod e he]
    have := (hlt e.col).2.2; have := (hmem e he).2; omega
  · exact (sortBlocks_sorted _).imp (fun h => by omega)
  · exact (sortBlocks_sorted _).imp (fun h => by omega)

theorem csbr3State_zero (H : BlkIn M (· * bs) (· * bs) blockrows blockcols es) :
    csbr3State S bs blockcols blockrows (runs Element.block es).length es 0 =
      ⟨none, ⟨(runs Element.block es).length + 1, fun k => if k = (runs Element.block es).length then some es.length else none⟩,
        Buf.uninit (runs Element.block es).length, Buf.filled (addM M blockrows 1) 0,
        Buf.uninit es.length, Buf.uninit es.length, Buf.uninit es.length⟩ := by
  have := H.brM
  rw [addM_eq (by omega)]
  simp [csbr3State, runKeys, runs, Buf.full, Buf.filled, Buf.uninit, ptr3]; rfl

theorem csbr3_main (hbs : 0 < bs) (hne : es ≠ []) (hlen : es.length + 1 < M)
    (hgrid : (rows + bs - 1) / bs * ((columns + bs - 1) / bs) < M) (hrows : rows + bs < M) (hcols : columns + bs < M)
    (hin : InRange (ents es) rows columns) :
    cooToCsbr3 M S es rows columns bs =
      .ok (csbr3Of S bs rows columns ((rows + bs - 1) / bs) ((columns + bs - 1) / bs)
          (prepared3 bs ((columns + bs - 1) / bs) es), prepared3 bs ((columns + bs - 1) / bs) es) := by
  have H := prepared3_blkIn (M := M) hbs hne (by omega) hgrid hrows hcols hin
  unfold cooToCsbr3
  rw [addM_eq hrows, subM_eq hrows (by omega), cdiv_ok hbs, ok_bind, addM_eq hcols, subM_eq hcols (by omega), cdiv_ok hbs,
    ok_bind, calculateBlockIdConst_spec hbs hbs (blockrows := (rows + bs - 1) / bs) (by omega) (by
      intro e he
      have := hin _ (List.mem_map_of_mem (f := NZ.toEnt) he)
      exact ⟨ceil_lt hbs this.1, ceil_lt hbs this.2⟩), ok_bind]
  have hpl := prepared3_length (bs := bs) (blockcols := (columns + bs - 1) / bs) (es := es)
  unfold prepared3 at H hpl ⊢
  simp only
  generalize sortElementsBlocks (es.map (withKey fun r c => r / bs * ((columns + bs - 1) / bs) + c / bs)) = es' at *
  generalize (columns + bs - 1) / bs = blockcols at *
  generalize (rows + bs - 1) / bs = blockrows at *
  have hrl := runs_length_le Element.block es'
  rw [countBlocks_spec M es' H.ne H.len H.sortedB, ok_bind, addM_eq (by omega), Buf.put_ok (by simp), ok_bind]
  obtain ⟨r, h1, h2⟩ := csbr3Scan_ok (S := S) H
  rw [csbr3State_zero H] at h1
  simp only [Buf.uninit_len]
  have hu : (Buf.uninit ((runs Element.block es').length + 1) : Buf Nat).dat = fun _ => none := rfl
  rw [hu]
  simp only
  rw [h1, ok_bind, h2]
  have hpre := prefixSum_count (M := M) (runKeys Element.block es') (fun κ => κ / blockcols) (n := blockrows) (len := blockrows + 1) rfl
    (by rw [runKeys_length]; omega)
  simp only [csbr3State, List.take_length]
  rw [hpre, ok_bind, Buf.get_full (by omega), ok_bind]
  simp only [Nat.le_refl, if_true]
  rw [runKeys_countP_row H, cassert_ok (by simp), ok_bind]
  rfl

/-- Entries of block `k` at their stored places: local rows and columns. -/
def blkEnts3 (S bs bc : Nat) (es : List (Element T)) (k : Nat) : List (Ent T) :=
  (((runs Element.block es)[k]?).getD []).map
    (fun e => ⟨(e.row - e.block / bc * bs) % S, (e.col - e.block % bc * bs) % S, e.val⟩)

theorem csbr3_spmv [Add T] [Mul T] (H : BlkIn M (· * bs) (· * bs) blockrows blockcols es)
    (nx ny : Nat) (hx : ∀ e ∈ es, e.col < nx) (hy : ∀ e ∈ es, e.row < ny) (x y : Nat → T) :
    Csbr3.spmvBalanced M (csbr3Of S bs rows columns blockrows blockcols es)
      (Buf.full nx x) (Buf.full ny y) = .ok (Buf.full ny (spmvInOrder (es.map (fun e =>
        (⟨e.block / blockcols * bs + (e.row - e.block / blockcols * bs) % S,
          e.block % blockcols * bs + (e.col - e.block % blockcols * bs) % S, e.val⟩ : Ent T))) x y)) := by
  unfold Csbr3.spmvBalanced
  have hs : (runKeys Element.block es).Pairwise (fun a b => a / blockcols ≤ b / blockcols) :=
    (runKeys_strict H).imp (fun h => Nat.div_le_div_right (Nat.le_of_lt h))
  have hrange : ∀ κ ∈ runKeys Element.block es, κ / blockcols < blockrows := by
    intro κ hκ
    obtain ⟨e, he, rfl⟩ := (mem_runKeys Element.block es κ).1 hκ
    exact H.row e he
  let loc : Element T → Ent T := fun e => ⟨e.block / blockcols * bs + (e.row - e.block / blockcols * bs) % S,
          e.block % blockcols * bs + (e.col - e.block % blockcols * bs) % S, e.val⟩
  have hlen := H.len
  have hloop := rowLoop (runKeys Element.block es) (· / blockcols) hs blockrows hrange
    (Csbr3.spmvRow M (csbr3Of S bs rows columns blockrows blockcols es) (Buf.full nx x))
    (fun k => Buf.full ny (visit x y (((runs Element.block es).take k).flatten.map loc))) (by
      intro br hbr
      unfold Csbr3.spmvRow
      simp only [csbr3Of]
      rw [Buf.get_full (by omega), ok_bind, Buf.get_full (by omega), ok_bind, if_pos (by omega), if_pos (by omega)]
      refine rowLoop_inner (runKeys Element.block es) (· / blockcols) hs br _
        (fun k => Buf.full ny (visit x y (((runs Element.block es).take k).flatten.map loc))) ?_
      intro k hk hkb
      have hk' : k < (runs Element.block es).length := by simpa using hk
      have hrm := run_mem Element.block es k hk'
      have hm := hrm.1
      rw [runKeys_getElem _ _ _ hk'] at hkb
      have hst : ∀ j, j ≤ (runs Element.block es).length →
          (ptr3 (runs Element.block es).length es.length (runs Element.block es)).get j = .ok (runStart Element.block es j) := by
        intro j hj
        refine Buf.get_ok (by simp [ptr3]; omega) ?_
        simp only [ptr3]
        by_cases h : j = (runs Element.block es).length
        · subst h; simp [runStart_length]
        · rw [if_neg h, if_pos (by omega), startOf_runs]
      have hle : runStart Element.block es (k + 1) ≤ es.length := by
        rw [← runStart_length Element.block es]
        unfold runStart
        exact (List.Sublist.map _ (List.take_sublist_take_left (by omega))).sum_le_sum (by simp)
      have hsucc := runStart_succ Element.block es k hk'
      obtain ⟨a0, ha0⟩ := List.exists_mem_of_ne_nil _ hrm.2.1
      have b1 := H.inR a0 (hm a0 ha0).1
      have b2 := H.inC a0 (hm a0 ha0).1
      have b3 := H.maxR a0 (hm a0 ha0).1
      have b4 := H.maxC a0 (hm a0 ha0).1
      rw [(hm a0 ha0).2] at b1 b2 b3 b4
      rw [Buf.get_ok (a := (runKeys Element.block es)[k] % blockcols) hk' (by simp only; rw [List.getElem?_eq_getElem hk]; rfl), ok_bind,
        hst k (by omega), ok_bind, hst (k + 1) (by omega), ok_bind, subM_eq (by omega) (by omega),
        runKeys_getElem _ _ _ hk', mulM_eq (by omega), ← hkb, mulM_eq (by omega)]
      have R : CooRep (blkEnts3 S bs blockcols es k) (runStart Element.block es k)
          ⟨es.length, fun k => (es[k]?).map (fun e => (e.row - e.block / blockcols * bs) % S)⟩
          ⟨es.length, fun k => (es[k]?).map (fun e => (e.col - e.block % blockcols * bs) % S)⟩
          ⟨es.length, fun k => (es[k]?).map (fun e => e.val)⟩ := by
        unfold blkEnts3
        rw [List.getElem?_eq_getElem hk', Option.getD_some]
        constructor <;>
        · intro j hj
          have hj' : j < (runs Element.block es)[k].length := by simpa using hj
          have := runs_getElem Element.block es k hk' j hj'
          have hlt := (List.getElem?_eq_some_iff.1 this).1
          exact ⟨hlt, by simp [this]⟩
      have hB : blkEnts3 S bs blockcols es k = ((runs Element.block es)[k]).map
          (fun e => ⟨(e.row - e.block / blockcols * bs) % S, (e.col - e.block % blockcols * bs) % S, e.val⟩) := by
        unfold blkEnts3; rw [List.getElem?_eq_getElem hk', Option.getD_some]
      rw [spmvCoo_spec R (by rw [hB, List.length_map]; omega) x _ (by
          intro e he
          rw [hB] at he
          obtain ⟨a, ha, rfl⟩ := List.mem_map.1 he
          have h1 := H.inC a (hm a ha).1
          have h2 := hx a (hm a ha).1
          have h3 := Nat.mod_le (a.col - a.block % blockcols * bs) S
          simp only at h1 ⊢
          rw [← (hm a ha).2]
          omega) (by
          intro e he
          rw [hB] at he
          obtain ⟨a, ha, rfl⟩ := List.mem_map.1 he
          have h1 := H.inR a (hm a ha).1
          have h2 := hy a (hm a ha).1
          have h3 := Nat.mod_le (a.row - a.block / blockcols * bs) S
          simp only at h1 ⊢
          rw [← (hm a ha).2]
          omega), ← visit_eq, ← visit_append, flatten_take_succ _ _ hk', List.map_append]
      congr 4
      rw [hB]
      unfold shift
      rw [List.map_map]
      refine List.map_congr_left (fun a ha => ?_)
      simp only [Function.comp, loc, ← (hm a ha).2])
  rw [runKeys_length, List.take_length, (runsOK Element.block es).flat] at hloop
  rw [← visit_eq]
  exact hloop

end csbr3
end Gsb
