import Verif.Spec.Readback
import Verif.Proof.Csbr3
import Verif.Proof.Csr2
import Verif.Proof.Cswr
/-
Reading the arrays back gives the sorted input entries.
-/
namespace Gsb
variable {ε T : Type} [NZ ε T]

omit [NZ ε T] in
theorem csrRead_spec {L : List (Ent T)} {base b0 base0 rows : Nat} {rp rp' ci : Buf Nat} {v : Buf T}
    (R : CsrRep L base rows rp ci v) (hb : base0 + b0 = base) (hlen : rows < rp'.len)
    (hdat : ∀ i, i ≤ rows → rp'.dat i = some (b0 + L.countP (fun e => decide (e.row < i))))
    (ro co : Nat) (acc : List (Ent T)) :
    csrRead rp' ci v base0 rows ro co acc = .ok (acc ++ shift ro co L) := by
  unfold csrRead
  refine forLoop_closed' (fun i => acc ++ shift ro co (L.take (L.countP (fun e => decide (e.row < i)))))
    (Nat.zero_le _) ?_ ?_ ?_
  · simp [shift]
  · rw [countP_lt_all L (·.row) rows R.range, List.take_length]
  · intro i _ hi
    rw [Buf.get_ok (by omega) (hdat i (by omega)), ok_bind,
      Buf.get_ok (by omega) (hdat (i + 1) (by omega)), ok_bind, forLoop_shift]
    have hab : L.countP (fun e => decide (e.row < i)) ≤ L.countP (fun e => decide (e.row < i + 1)) :=
      countP_lt_mono L (·.row) (by omega)
    rw [← take_drop_append L hab, shift_append]
    have hsl := forLoop_slice (lo := L.countP (fun e => decide (e.row < i)))
      (hi := L.countP (fun e => decide (e.row < i + 1)))
      (f := fun j (acc : List (Ent T)) => (do
        let vj ← v.get (base0 + (b0 + j))
        let c ← ci.get (base0 + (b0 + j))
        .ok (acc ++ [⟨ro + i, co + c, vj⟩] : List (Ent T)) : C (List (Ent T)))) L
      (fun (t : List (Ent T)) => t) (fun t e => t ++ [⟨ro + e.row, co + e.col, e.val⟩])
      (acc ++ shift ro co (L.take (L.countP (fun e => decide (e.row < i))))) hab List.countP_le_length (by
        intro j t h h1 h2
        have hrow : L[j].row = i := slice_eq L (·.row) R.sorted i j h h1 h2
        have e1 : base0 + (b0 + j) = base + j := by omega
        simp only [e1]
        rw [Buf.get_ok (R.vDat j h).1 (R.vDat j h).2, ok_bind, Buf.get_ok (R.ciDat j h).1 (R.ciDat j h).2, ok_bind, hrow])
    rw [hsl]
    congr 1
    rw [← List.append_assoc]
    generalize acc ++ shift ro co _ = a0
    generalize (List.take _ L).drop _ = l
    induction l generalizing a0 with
    | nil => simp [shift]
    | cons e l ih => rw [List.foldl_cons, ih]; simp [shift]

omit [NZ ε T] in
theorem cooRead_spec {L : List (Ent T)} {base n : Nat} {ri ci : Buf Nat} {v : Buf T}
    (R : CooRep L base ri ci v) (hn : n = L.length) (ro co : Nat) (acc : List (Ent T)) :
    cooRead ri ci v base n ro co acc = .ok (acc ++ shift ro co L) := by
  unfold cooRead
  subst hn
  have := forLoop_list (f := fun j (acc : List (Ent T)) => (do
        let r ← ri.get (base + j)
        let c ← ci.get (base + j)
        let vj ← v.get (base + j)
        .ok (acc ++ [⟨ro + r, co + c, vj⟩] : List (Ent T)) : C (List (Ent T)))) L
      (fun (t : List (Ent T)) => t) (fun t e => t ++ [⟨ro + e.row, co + e.col, e.val⟩]) acc (by
        intro j t h
        rw [Buf.get_ok (R.rDat j h).1 (R.rDat j h).2, ok_bind, Buf.get_ok (R.cDat j h).1 (R.cDat j h).2, ok_bind,
          Buf.get_ok (R.vDat j h).1 (R.vDat j h).2, ok_bind])
  rw [this]
  congr 1
  clear this R
  induction L generalizing acc with
  | nil => simp [shift]
  | cons e l ih => rw [List.foldl_cons, ih]; simp [shift]

theorem csrOf_read (S : Nat) (es : List ε) (rows columns : Nat)
    (hrow : ∀ e ∈ es, (NZ.toEnt e).row < rows)
    (hs : es.Pairwise (fun a b => (NZ.toEnt a).row ≤ (NZ.toEnt b).row)) :
    (csrOf S es rows columns).read = .ok (truncCols S (ents es)) := by
  have R := csrOf_rep S es rows columns hrow hs
  unfold Csr.read
  have h := csrRead_spec (b0 := 0) (base0 := 0) R rfl R.rpLen (by
    intro i hi; rw [R.rpDat i hi, Nat.zero_add]) 0 0 []
  rw [shift_zero, List.nil_append] at h
  exact h

theorem csr2Of_read (es : List ε) (rows columns : Nat)
    (hrow : ∀ e ∈ es, (NZ.toEnt e).row < rows)
    (hs : es.Pairwise (fun a b => (NZ.toEnt a).row ≤ (NZ.toEnt b).row)) :
    (csr2Of es rows columns).read = .ok (ents es) := by
  have R : CsrRep (ents es) 0 rows (csr2Of es rows columns).rowPtr
      (csr2Of es rows columns).dataIndex (csr2Of es rows columns).dataVal := by
    refine ⟨by simp [csr2Of], ?_, ?_, ?_, ?_, ?_⟩
    · intro i hi
      simp only [csr2Of, Buf.full_dat, hi, if_true, ents, List.countP_map, Function.comp_def]
    · intro j h
      have h' : j < es.length := by simpa [ents] using h
      simp [csr2Of, ents, h']
    · intro j h
      have h' : j < es.length := by simpa [ents] using h
      simp [csr2Of, ents, h']
    · unfold ents
      rw [List.pairwise_map]
      exact hs
    · intro e he
      simp only [ents, List.mem_map] at he
      obtain ⟨b, hb, rfl⟩ := he
      exact hrow b hb
  unfold Csr2.read
  have h := csrRead_spec (b0 := 0) (base0 := 0) R rfl R.rpLen (by
    intro i hi; rw [R.rpDat i hi, Nat.zero_add]) 0 0 []
  rw [shift_zero, List.nil_append] at h
  exact h

theorem cswrOf_read (S : Nat) (es : List ε) (rows columns width nwrows : Nat)
    (hs : es.Pairwise (fun a b => (NZ.toEnt a).row / width ≤ (NZ.toEnt b).row / width))
    (hrow : ∀ e ∈ es, (NZ.toEnt e).row / width < nwrows) :
    (cswrOf S es rows columns width nwrows).read =
      .ok ((ents es).map (fun e => ⟨width * (e.row / width) + e.row % width % S, e.col, e.val⟩)) := by
  unfold Cswr.read
  let g : ε → Ent T := fun e => ⟨width * ((NZ.toEnt e).row / width) + (NZ.toEnt e).row % width % S, (NZ.toEnt e).col, (NZ.toEnt e).val⟩
  have hg : (ents es).map (fun e => (⟨width * (e.row / width) + e.row % width % S, e.col, e.val⟩ : Ent T)) = es.map g := by
    unfold ents; rw [List.map_map]; rfl
  rw [hg]
  refine forLoop_closed' (fun i => (es.take (es.countP (fun e => decide ((NZ.toEnt e).row / width < i)))).map g)
    (Nat.zero_le _) ?_ ?_ ?_
  · simp
  · have : (cswrOf S es rows columns width nwrows).nwrows = nwrows := rfl
    rw [this, countP_lt_all es (fun e => (NZ.toEnt e).row / width) nwrows hrow, List.take_length]
  · intro i _ hi
    have hi' : i < nwrows := hi
    have hab := countP_lt_mono es (fun e => (NZ.toEnt e).row / width) (show i ≤ i + 1 by omega)
    have hbl : es.countP (fun e => decide ((NZ.toEnt e).row / width < i + 1)) ≤ es.length := List.countP_le_length
    have hk := slice_eq es (fun e => (NZ.toEnt e).row / width) hs i
    simp only [cswrOf]
    rw [Buf.get_full (by omega), ok_bind, Buf.get_full (by omega), ok_bind, if_pos (by omega), if_pos (by omega)]
    rw [← take_drop_append es hab]
    generalize es.countP (fun e => decide ((NZ.toEnt e).row / width < i)) = a at *
    generalize es.countP (fun e => decide ((NZ.toEnt e).row / width < i + 1)) = b at *
    have R : CooRep (((es.take b).drop a).map (fun e : ε =>
        (⟨(NZ.toEnt e).row % width % S, (NZ.toEnt e).col, (NZ.toEnt e).val⟩ : Ent T))) a
        ⟨es.length, fun k => (es[k]?).map (fun e => (NZ.toEnt e).row % width % S)⟩
        ⟨es.length, fun k => (es[k]?).map (fun e => (NZ.toEnt e).col)⟩
        (⟨es.length, fun k => (es[k]?).map (fun e => (NZ.toEnt e).val)⟩ : Buf T) := by
      constructor <;>
      · intro j h
        have hj : j < ((es.take b).drop a).length := by simpa using h
        have hj2 : a + j < es.length := by simp at hj; omega
        refine ⟨hj2, ?_⟩
        simp [hj2]
    rw [cooRead_spec R (by simp; omega), List.map_append]
    congr 2
    unfold shift
    rw [List.map_map]
    refine List.map_congr_left (fun e he => ?_)
    obtain ⟨j, hj, rfl⟩ := List.getElem_of_mem he
    have hj2 : j < b - a := by simp at hj; omega
    have := hk (a + j) (by omega) (by omega) (by omega)
    simp only [Function.comp, g, List.getElem_drop, List.getElem_take]
    rw [this, Nat.mul_comm]
    simp

section blocked
omit [NZ ε T]
variable {M S : Nat} {offR offC : List Nat} {blockrows blockcols rows columns bs : Nat} {es : List (Element T)}
  {fR fC : Nat → Nat}

/-- The arrays of block `k` of a CSBR matrix. -/
theorem csbr_csrRep (H : BlkIn M fR fC blockrows blockcols es) {k : Nat} (hk' : k < (runs Element.block es).length) :
    CsrRep (((runs Element.block es)[k]).map (locEnt fR fC blockcols)) (runStart Element.block es k)
        (ptrRow fR blockcols (runKey Element.block (runs Element.block es)[k]) (runStart Element.block es k)
          (runs Element.block es)[k]).rows
        (ptrRow fR blockcols (runKey Element.block (runs Element.block es)[k]) (runStart Element.block es k)
          (runs Element.block es)[k]).rowPtr
        ⟨es.length, fun k => (es[k]?).map (fun e => e.col - fC (e.block % blockcols))⟩
        ⟨es.length, fun k => (es[k]?).map (fun e => e.val)⟩ := by
  have hm := (run_mem Element.block es k hk').1
  refine ⟨by simp [ptrRow], ?_, ?_, ?_, ?_, ?_⟩
  · intro i hi
    have hi' : i ≤ fR (runKey Element.block (runs Element.block es)[k] / blockcols + 1) -
      fR (runKey Element.block (runs Element.block es)[k] / blockcols) := hi
    simp only [ptrRow, Buf.full_dat, if_pos hi', List.countP_map, Function.comp_def, locEnt]; rfl
  · intro j hj
    have hj' : j < (runs Element.block es)[k].length := by simpa using hj
    have := runs_getElem Element.block es k hk' j hj'
    have hlt := (List.getElem?_eq_some_iff.1 this).1
    exact ⟨hlt, by simp [this, locEnt]⟩
  · intro j hj
    have hj' : j < (runs Element.block es)[k].length := by simpa using hj
    have := runs_getElem Element.block es k hk' j hj'
    have hlt := (List.getElem?_eq_some_iff.1 this).1
    exact ⟨hlt, by simp [this, locEnt]⟩
  · rw [List.pairwise_map]
    refine (run_sorted H hk').imp_of_mem (fun ha hb h => ?_)
    simp only [locEnt, (hm _ ha).2, (hm _ hb).2]
    omega
  · intro e he
    obtain ⟨a, ha, rfl⟩ := List.mem_map.1 he
    have := H.inR a (hm a ha).1
    simp only [locEnt, ptrRow, ← (hm a ha).2]
    omega

theorem csbr_read (H : BlkIn M fR fC blockrows blockcols es)
    (hR : ∀ i, i ≤ blockrows → rd offR i = .ok (fR i)) (hC : ∀ i, i ≤ blockcols → rd offC i = .ok (fC i))
    (P : List (List Nat)) :
    Csbr.read { csbrOf fR fC offR offC rows columns blockrows blockcols es with partition := P } = .ok (ents es) := by
  unfold Csbr.read
  have hs : (runKeys Element.block es).Pairwise (fun a b => a / blockcols ≤ b / blockcols) :=
    (runKeys_strict H).imp (fun h => Nat.div_le_div_right (Nat.le_of_lt h))
  have hrange : ∀ κ ∈ runKeys Element.block es, κ / blockcols < blockrows := by
    intro κ hκ
    obtain ⟨e, he, rfl⟩ := (mem_runKeys Element.block es κ).1 hκ
    exact H.row e he
  have hloop := rowLoop (runKeys Element.block es) (· / blockcols) hs blockrows hrange
    (fun br acc => do
      let lo ← (csbrOf fR fC offR offC rows columns blockrows blockcols es).blockrowPtr.get br
      let hi ← (csbrOf fR fC offR offC rows columns blockrows blockcols es).blockrowPtr.get (br + 1)
      forLoop lo hi acc fun k acc => do
        let blk ← (csbrOf fR fC offR offC rows columns blockrows blockcols es).blocks.get k
        let bc ← (csbrOf fR fC offR offC rows columns blockrows blockcols es).blockcolInd.get k
        let ro ← rd offR br
        let co ← rd offC bc
        csrRead blk.rowPtr (csbrOf fR fC offR offC rows columns blockrows blockcols es).colInd
          (csbrOf fR fC offR offC rows columns blockrows blockcols es).val blk.base blk.rows ro co acc)
    (fun k => allEnts blockcols fR (runKeys Element.block es) (blkEnts fR blockcols es) k) (by
      intro br hbr
      simp only [csbrOf]
      rw [Buf.get_full (by omega), ok_bind, Buf.get_full (by omega), ok_bind, if_pos (by omega), if_pos (by omega)]
      refine rowLoop_inner (runKeys Element.block es) (· / blockcols) hs br _
        (fun k => allEnts blockcols fR (runKeys Element.block es) (blkEnts fR blockcols es) k) ?_
      intro k hk hkb
      have hk' : k < (runs Element.block es).length := by simpa using hk
      have hm := (run_mem Element.block es k hk').1
      rw [runKeys_getElem _ _ _ hk'] at hkb
      have hget : (blkBuf (runs Element.block es).length Element.block (ptrRow fR blockcols) (runs Element.block es)).get k =
        .ok (ptrRow fR blockcols (runKey Element.block (runs Element.block es)[k]) (runStart Element.block es k)
          (runs Element.block es)[k]) := by
        refine Buf.get_ok hk' ?_
        simp [blkBuf, hk', startOf_runs]
      rw [hget, ok_bind, Buf.get_ok (a := (runKeys Element.block es)[k] % blockcols) hk'
        (by simp only; rw [List.getElem?_eq_getElem hk]; rfl), ok_bind, hR br (by omega), ok_bind,
        hC _ (Nat.le_of_lt (Nat.mod_lt _ H.bcPos)), ok_bind]
      have R := csbr_csrRep H hk'
      have h := csrRead_spec (b0 := 0) R (Nat.add_zero _) R.rpLen (by
        intro i hi; rw [R.rpDat i hi, Nat.zero_add]) (fR br) (fC ((runKeys Element.block es)[k] % blockcols))
        (allEnts blockcols fR (runKeys Element.block es) (blkEnts fR blockcols es) k)
      refine h.trans ?_
      rw [allEnts_succ, List.getElem?_eq_getElem hk, Option.getD_some, runKeys_getElem _ _ _ hk', hkb]
      congr 2
      rw [blkEnts_eq fR blockcols es hk']
      unfold shift
      rw [List.map_map, List.map_map]
      refine List.map_congr_left (fun a ha => ?_)
      have h1 := H.inC a (hm a ha).1
      simp only [Function.comp, locEnt, ← (hm a ha).2, Nat.zero_add]
      rw [Nat.add_sub_cancel' h1.1])
  rw [allEnts_blkEnts H] at hloop
  exact hloop

theorem csbr2_read (H : BlkIn M fR fC blockrows blockcols es)
    (hR : ∀ i, i ≤ blockrows → rd offR i = .ok (fR i)) :
    Csbr2.read (csbr2Of fR offR offC rows columns blockrows blockcols es) = .ok (ents es) := by
  unfold Csbr2.read
  have hs : (runKeys Element.block es).Pairwise (fun a b => a / blockcols ≤ b / blockcols) :=
    (runKeys_strict H).imp (fun h => Nat.div_le_div_right (Nat.le_of_lt h))
  have hrange : ∀ κ ∈ runKeys Element.block es, κ / blockcols < blockrows := by
    intro κ hκ
    obtain ⟨e, he, rfl⟩ := (mem_runKeys Element.block es κ).1 hκ
    exact H.row e he
  have hloop := rowLoop (runKeys Element.block es) (· / blockcols) hs blockrows hrange
    (fun br acc => do
      let lo ← (csbr2Of fR offR offC rows columns blockrows blockcols es).blockrowPtr.get br
      let hi ← (csbr2Of fR offR offC rows columns blockrows blockcols es).blockrowPtr.get (br + 1)
      forLoop lo hi acc fun k acc => do
        let rp ← (csbr2Of fR offR offC rows columns blockrows blockcols es).rowPtr.get k
        let ro ← rd offR br
        let re ← rd offR (br + 1)
        csrRead rp (csbr2Of fR offR offC rows columns blockrows blockcols es).colInd
          (csbr2Of fR offR offC rows columns blockrows blockcols es).val 0 (re - ro) ro 0 acc)
    (fun k => allEnts blockcols fR (runKeys Element.block es) (blkEnts fR blockcols es) k) (by
      intro br hbr
      simp only [csbr2Of]
      rw [Buf.get_full (by omega), ok_bind, Buf.get_full (by omega), ok_bind, if_pos (by omega), if_pos (by omega)]
      refine rowLoop_inner (runKeys Element.block es) (· / blockcols) hs br _
        (fun k => allEnts blockcols fR (runKeys Element.block es) (blkEnts fR blockcols es) k) ?_
      intro k hk hkb
      have hk' : k < (runs Element.block es).length := by simpa using hk
      have hm := (run_mem Element.block es k hk').1
      rw [runKeys_getElem _ _ _ hk'] at hkb
      have hget : (blkBuf (runs Element.block es).length Element.block (ptrRow2 fR blockcols) (runs Element.block es)).get k =
        .ok (ptrRow2 fR blockcols (runKey Element.block (runs Element.block es)[k]) (runStart Element.block es k)
          (runs Element.block es)[k]) := by
        refine Buf.get_ok hk' ?_
        simp [blkBuf, hk', startOf_runs]
      rw [hget, ok_bind, hR br (by omega), ok_bind, hR (br + 1) (by omega), ok_bind]
      have R : CsrRep (blkEnts fR blockcols es k) (runStart Element.block es k) (fR (br + 1) - fR br)
          (ptrRow fR blockcols (runKey Element.block (runs Element.block es)[k]) (runStart Element.block es k)
            (runs Element.block es)[k]).rowPtr
          ⟨es.length, fun k => (es[k]?).map (fun e => e.col)⟩
          ⟨es.length, fun k => (es[k]?).map (fun e => e.val)⟩ := by
        rw [blkEnts_eq fR blockcols es hk']
        refine ⟨by simp [ptrRow, hkb], ?_, ?_, ?_, ?_, ?_⟩
        · intro i hi
          simp only [ptrRow, Buf.full_dat, hkb, if_pos hi, List.countP_map, Function.comp_def]
        · intro j hj
          have hj' : j < (runs Element.block es)[k].length := by simpa using hj
          have := runs_getElem Element.block es k hk' j hj'
          have hlt := (List.getElem?_eq_some_iff.1 this).1
          exact ⟨hlt, by simp [this]⟩
        · intro j hj
          have hj' : j < (runs Element.block es)[k].length := by simpa using hj
          have := runs_getElem Element.block es k hk' j hj'
          have hlt := (List.getElem?_eq_some_iff.1 this).1
          exact ⟨hlt, by simp [this]⟩
        · rw [List.pairwise_map]
          refine (run_sorted H hk').imp_of_mem (fun ha hb h => ?_)
          simp only [(hm _ ha).2, (hm _ hb).2]
          omega
        · intro e he
          obtain ⟨a, ha, rfl⟩ := List.mem_map.1 he
          have := H.inR a (hm a ha).1
          rw [(hm a ha).2, hkb] at this
          simp only [(hm a ha).2, hkb]
          omega
      have h := csrRead_spec (b0 := runStart Element.block es k) (base0 := 0) R (Nat.zero_add _)
        (rp' := ptrRow2 fR blockcols (runKey Element.block (runs Element.block es)[k]) (runStart Element.block es k)
          (runs Element.block es)[k]) (by simp [ptrRow2, hkb]) (by
        intro i hi
        rw [blkEnts_eq fR blockcols es hk']
        simp only [ptrRow2, Buf.full_dat, hkb, if_pos hi, List.countP_map, Function.comp_def]) (fR br) 0
        (allEnts blockcols fR (runKeys Element.block es) (blkEnts fR blockcols es) k)
      refine h.trans ?_
      rw [allEnts_succ, List.getElem?_eq_getElem hk, Option.getD_some, runKeys_getElem _ _ _ hk', hkb])
  rw [allEnts_blkEnts H] at hloop
  exact hloop

theorem csbr3_read (H : BlkIn M (· * bs) (· * bs) blockrows blockcols es) :
    Csbr3.read (csbr3Of S bs rows columns blockrows blockcols es) = .ok (es.map (fun e =>
        (⟨e.block / blockcols * bs + (e.row - e.block / blockcols * bs) % S,
          e.block % blockcols * bs + (e.col - e.block % blockcols * bs) % S, e.val⟩ : Ent T))) := by
  unfold Csbr3.read
  have hs : (runKeys Element.block es).Pairwise (fun a b => a / blockcols ≤ b / blockcols) :=
    (runKeys_strict H).imp (fun h => Nat.div_le_div_right (Nat.le_of_lt h))
  have hrange : ∀ κ ∈ runKeys Element.block es, κ / blockcols < blockrows := by
    intro κ hκ
    obtain ⟨e, he, rfl⟩ := (mem_runKeys Element.block es κ).1 hκ
    exact H.row e he
  let loc : Element T → Ent T := fun e => ⟨e.block / blockcols * bs + (e.row - e.block / blockcols * bs) % S,
          e.block % blockcols * bs + (e.col - e.block % blockcols * bs) % S, e.val⟩
  have hloop := rowLoop (runKeys Element.block es) (· / blockcols) hs blockrows hrange
    (fun br acc => do
      let lo ← (csbr3Of S bs rows columns blockrows blockcols es).blockrowPtr.get br
      let hi ← (csbr3Of S bs rows columns blockrows blockcols es).blockrowPtr.get (br + 1)
      forLoop lo hi acc fun k acc => do
        let bc ← (csbr3Of S bs rows columns blockrows blockcols es).blockcolInd.get k
        let s ← (csbr3Of S bs rows columns blockrows blockcols es).blockPtr.get k
        let e ← (csbr3Of S bs rows columns blockrows blockcols es).blockPtr.get (k + 1)
        cooRead (csbr3Of S bs rows columns blockrows blockcols es).rowInd (csbr3Of S bs rows columns blockrows blockcols es).colInd
          (csbr3Of S bs rows columns blockrows blockcols es).val s (e - s) (br * bs) (bc * bs) acc)
    (fun k => ((runs Element.block es).take k).flatten.map loc) (by
      intro br hbr
      simp only [csbr3Of]
      rw [Buf.get_full (by omega), ok_bind, Buf.get_full (by omega), ok_bind, if_pos (by omega), if_pos (by omega)]
      refine rowLoop_inner (runKeys Element.block es) (· / blockcols) hs br _
        (fun k => ((runs Element.block es).take k).flatten.map loc) ?_
      intro k hk hkb
      have hk' : k < (runs Element.block es).length := by simpa using hk
      have hrm := run_mem Element.block es k hk'
      have hm := hrm.1
      rw [runKeys_getElem _ _ _ hk'] at hkb
      have hst : ∀ j, j ≤ (runs Element.block es).length →
          (ptr3 (runs Element.block es).length es.length (runs Element.block es)).get j = .ok (runStart Element.block es j) := by
        intro j hj
        refine Buf.get_ok (by simp [ptr3]; omega) ?_
        simp only [ptr3]
        by_cases h : j = (runs Element.block es).length
        · subst h; simp [runStart_length]
        · rw [if_neg h, if_pos (by omega), startOf_runs]
      have hsucc := runStart_succ Element.block es k hk'
      rw [Buf.get_ok (a := (runKeys Element.block es)[k] % blockcols) hk' (by simp only; rw [List.getElem?_eq_getElem hk]; rfl), ok_bind,
        hst k (by omega), ok_bind, hst (k + 1) (by omega), ok_bind, runKeys_getElem _ _ _ hk', ← hkb]
      have hB : blkEnts3 S bs blockcols es k = ((runs Element.block es)[k]).map
          (fun e => ⟨(e.row - e.block / blockcols * bs) % S, (e.col - e.block % blockcols * bs) % S, e.val⟩) := by
        unfold blkEnts3; rw [List.getElem?_eq_getElem hk', Option.getD_some]
      have R : CooRep (blkEnts3 S bs blockcols es k) (runStart Element.block es k)
          ⟨es.length, fun k => (es[k]?).map (fun e => (e.row - e.block / blockcols * bs) % S)⟩
          ⟨es.length, fun k => (es[k]?).map (fun e => (e.col - e.block % blockcols * bs) % S)⟩
          ⟨es.length, fun k => (es[k]?).map (fun e => e.val)⟩ := by
        rw [hB]
        constructor <;>
        · intro j hj
          have hj' : j < (runs Element.block es)[k].length := by simpa using hj
          have := runs_getElem Element.block es k hk' j hj'
          have hlt := (List.getElem?_eq_some_iff.1 this).1
          exact ⟨hlt, by simp [this]⟩
      rw [cooRead_spec R (by rw [hB, List.length_map]; omega), flatten_take_succ _ _ hk', List.map_append]
      congr 2
      rw [hB]
      unfold shift
      rw [List.map_map]
      refine List.map_congr_left (fun a ha => ?_)
      simp only [Function.comp, loc, ← (hm a ha).2])
  rw [runKeys_length, List.take_length, (runsOK Element.block es).flat] at hloop
  exact hloop

end blocked
end Gsb
