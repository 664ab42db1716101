import Verif.Spec.ReadCgbr
import Verif.Proof.Readback
import Verif.Proof.CgbrTop
/-
Reading a `Cgbr` back.
-/
namespace Gsb
variable {T : Type}

theorem denseRead_spec (A : Dense T) (D : Nat → Nat → T)
    (hD : ∀ i j, i < A.rows → j < A.columns → A.val.get (i * A.columns + j) = .ok (D i j)) (ro co : Nat) (acc : List (Ent T)) :
    denseRead A ro co acc = .ok (acc ++ shift ro co ((List.range A.rows).flatMap
      (fun i => (List.range A.columns).map (fun j => ⟨i, j, D i j⟩)))) := by
  unfold denseRead
  refine forLoop_closed' (fun i => acc ++ shift ro co ((List.range i).flatMap
      (fun i => (List.range A.columns).map (fun j => ⟨i, j, D i j⟩)))) (Nat.zero_le _) (by simp [shift]) rfl ?_
  intro i _ hi
  refine forLoop_closed' (fun c => (acc ++ shift ro co ((List.range i).flatMap
      (fun i => (List.range A.columns).map (fun j => ⟨i, j, D i j⟩)))) ++
      (List.range c).map (fun j => ⟨ro + i, co + j, D i j⟩)) (Nat.zero_le _) (by simp) ?_ ?_
  · simp [List.range_succ, shift, Function.comp_def]
  · intro j _ hj
    rw [hD i j hi hj, ok_bind]
    simp [List.range_succ]

theorem lastAt_mem [Zero T] {L : List (Ent T)} (hd : Distinct L) {e : Ent T} (he : e ∈ L) : lastAt L e.row e.col = e.val := by
  induction L using List.reverseRecOn with
  | nil => simp at he
  | append_singleton l a ih =>
    rw [lastAt_snoc]
    unfold Distinct at hd
    rw [List.pairwise_append] at hd
    rcases List.mem_append.1 he with h | h
    · rw [if_neg (fun hh => hd.2.2 e h a (by simp) ⟨hh.1.symm, hh.2.symm⟩)]
      exact ih hd.1 h
    · rw [List.mem_singleton] at h; subst h; simp

theorem lastAt_none [Zero T] {L : List (Ent T)} {i j : Nat} (h : ∀ e ∈ L, ¬ (e.row = i ∧ e.col = j)) : lastAt L i j = 0 := by
  induction L using List.reverseRecOn with
  | nil => rfl
  | append_singleton l a ih =>
    rw [lastAt_snoc, if_neg (h a (by simp))]
    exact ih (fun e he => h e (by simp [he]))

/-- A dense block of distinct entries holds them and zeros. -/
theorem dense_perm [Zero T] {L : List (Ent T)} {rs cs : Nat} (hd : Distinct L) (hin : InRange L rs cs) :
    ∃ Z : List (Ent T), (∀ z ∈ Z, z.val = 0) ∧
      ((List.range rs).flatMap (fun i => (List.range cs).map (fun j => (⟨i, j, lastAt L i j⟩ : Ent T)))).Perm (L ++ Z) := by
  let P := (List.range rs).flatMap (fun i => (List.range cs).map (fun j => (i, j)))
  let Q := L.map (fun e => (e.row, e.col))
  have hP : P.Nodup := by
    have : P = (List.range rs).product (List.range cs) := rfl
    rw [this]
    exact List.nodup_range.product List.nodup_range
  have hmP : ∀ p, p ∈ P ↔ p.1 < rs ∧ p.2 < cs := by
    rintro ⟨i, j⟩; simp [P, List.mem_flatMap]
  have hQ : Q.Nodup := by
    unfold Distinct at hd
    show (L.map _).Pairwise (· ≠ ·)
    rw [List.pairwise_map]
    exact hd.imp (fun h hh => h ⟨congrArg Prod.fst hh, congrArg Prod.snd hh⟩)
  have hperm : P.Perm (Q ++ P.filter (fun p => decide (p ∉ Q))) := by
    refine (List.perm_ext_iff_of_nodup hP ?_).2 ?_
    · rw [List.nodup_append]
      exact ⟨hQ, hP.filter _, fun a ha b hb hab => by
        subst hab; simp only [List.mem_filter, decide_eq_true_eq] at hb; exact hb.2 ha⟩
    · intro p
      simp only [List.mem_append, List.mem_filter, decide_eq_true_eq]
      constructor
      · intro h
        by_cases hq : p ∈ Q
        · exact .inl hq
        · exact .inr ⟨h, hq⟩
      · rintro (h | h)
        · obtain ⟨e, he, rfl⟩ := List.mem_map.1 h
          exact (hmP _).2 (hin e he)
        · exact h.1
  have hf := hperm.map (fun p : Nat × Nat => (⟨p.1, p.2, lastAt L p.1 p.2⟩ : Ent T))
  refine ⟨(P.filter (fun p => decide (p ∉ Q))).map (fun p => ⟨p.1, p.2, lastAt L p.1 p.2⟩), ?_, ?_⟩
  · intro z hz
    obtain ⟨p, hp, rfl⟩ := List.mem_map.1 hz
    simp only [List.mem_filter, decide_eq_true_eq] at hp
    exact lastAt_none (fun e he hh => hp.2 (List.mem_map.2 ⟨e, he, Prod.ext hh.1 hh.2⟩))
  · have e1 : P.map (fun p : Nat × Nat => (⟨p.1, p.2, lastAt L p.1 p.2⟩ : Ent T)) =
        (List.range rs).flatMap (fun i => (List.range cs).map (fun j => (⟨i, j, lastAt L i j⟩ : Ent T))) := by
      simp [P, List.map_flatMap, Function.comp_def]
    have e2 : Q.map (fun p : Nat × Nat => (⟨p.1, p.2, lastAt L p.1 p.2⟩ : Ent T)) = L := by
      simp only [Q, List.map_map]
      conv => rhs; rw [← List.map_id L]
      refine List.map_congr_left (fun e he => ?_)
      simp only [Function.comp, lastAt_mem hd he, id]
    rw [List.map_append, e1, e2] at hf
    exact hf

/-- What reading one block gives: its entries, in some order, and the zeros of a dense block. -/
theorem block_read [Zero T] {M S : Nat} {choose : Nat → Nat → Nat → BlockChoice} {rs cs : Nat} {g : List (Element T)}
    {r : Nat × MatrixBlock T × List (Element T)} (h : cooToMatrixBlock M S choose rs cs g = .ok r)
    (hok : cgbrOk M S choose rs cs (ents g)) (hne : g ≠ [])
    (hlen : g.length < M) (hr : rs + 1 < M) (hin : InRange (ents g) rs cs) (hs : g.Pairwise (fun a b => a.row ≤ b.row)) :
    ∃ E Z : List (Ent T), (∀ ro co acc, r.2.1.read ro co acc = .ok (acc ++ shift ro co E)) ∧ E.Perm (ents g ++ Z) ∧
      (∀ z ∈ Z, z.val = 0) ∧ ((∀ rs cs n, choose rs cs n ≠ .dense) → Z = []) := by
  have hrow : ∀ e ∈ g, (NZ.toEnt e : Ent T).row < rs := fun e he => (hin _ (List.mem_map_of_mem (f := NZ.toEnt) he)).1
  have hgl : (ents g).length = g.length := by simp [ents]
  unfold cgbrOk at hok
  rw [hgl] at hok
  unfold cooToMatrixBlock at h
  cases hc : choose rs cs g.length with
  | coo =>
    rw [hc] at h hok
    simp only at h hok
    have hS : ∀ e ∈ ents g, e.row < S ∧ e.col < S := fun e he => by
      have := hin e he; omega
    rw [cooToBlockCoo_spec M S g hS] at h
    unfold mkCoo at h
    simp only at h
    rw [cooFill_spec, ok_bind, ok_bind] at h
    injection h with h
    subst h
    have hp : (ents (sortTripletsMorton M g)).Perm (ents g) := (sortMorton_perm M g).map _
    refine ⟨ents (sortTripletsMorton M g), [], fun ro co acc => ?_, by simpa using hp, by simp, fun _ => rfl⟩
    have R := cooFill_rep S (sortTripletsMorton M g) (T := T)
    have ht : truncBoth S (ents (sortTripletsMorton M g) : List (Ent T)) = ents (sortTripletsMorton M g) :=
      truncBoth_eq (fun e he => hS e (hp.mem_iff.1 he))
    rw [ht] at R
    exact cooRead_spec R (by simp [ents]) ro co acc
  | csr =>
    rw [hc] at h hok
    simp only at h hok
    unfold cooToBlockCsr at h
    simp only [if_true] at h
    rw [csrBuild_spec M S g rs cs hlen hr hrow, ok_bind, ok_bind] at h
    injection h with h
    subst h
    refine ⟨ents g, [], fun ro co acc => ?_, by simp, by simp, fun _ => rfl⟩
    have R := csrOf_rep S g rs cs hrow hs
    have hd := csrRead_spec (b0 := 0) (base0 := 0) R rfl R.rpLen (by
      intro i hi; rw [R.rpDat i hi, Nat.zero_add]) ro co acc
    rw [truncCols_eq (fun e he => by have := hin e he; omega)] at hd
    exact hd
  | dense =>
    rw [hc] at h hok
    simp only at h hok
    have hcs : 0 < cs := by
      obtain ⟨e, he⟩ := List.exists_mem_of_ne_nil g hne
      have := hin _ (List.mem_map_of_mem (f := NZ.toEnt) he)
      omega
    unfold cooToDense at h
    simp only at h
    rw [cassert_ok (by rw [mulM_eq hok.1]; simp; exact Nat.le_mul_of_pos_right rs hcs), ok_bind,
      denseFill_spec M g rs cs hok.1 hin, ok_bind, ok_bind] at h
    injection h with h
    subst h
    obtain ⟨Z, hz, hp⟩ := dense_perm hok.2 hin
    refine ⟨_, Z, fun ro co acc => ?_, hp, hz, fun hn => absurd hc (hn _ _ _)⟩
    refine denseRead_spec _ (lastAt (ents g)) ?_ ro co acc
    intro i j hi hj
    refine (Buf.get_full (pos_lt hi hj)).trans ?_
    have h' := (pos_iff (r := i) (p := i * cs + j) hj).1 rfl
    simp only
    rw [← h'.1, ← h'.2]

/-- Reading all blocks. -/
theorem cgbr_read {M blockrows bc rows columns : Nat} {offR offC : List Nat} {fR fC : Nat → Nat} {es : List (Element T)}
    {res : Results (MatrixBlock T) T} (H : BlkIn M fR fC blockrows bc es)
    (hR : ∀ i, i ≤ blockrows → rd offR i = .ok (fR i)) (hC : ∀ i, i ≤ bc → rd offC i = .ok (fC i))
    (E : Nat → List (Ent T))
    (hE : ∀ k, k < (runs Element.block es).length → ∀ ro co acc, (res k).2.1.read ro co acc = .ok (acc ++ shift ro co (E k)))
    (b : Bool) (P : List (List Nat)) :
    Cgbr.read ⟨gbrOf res offR offC rows columns blockrows bc es, b, P⟩ =
      .ok (allEnts bc fR (runKeys Element.block es) (fun k => shift 0 (fC ((runKeys Element.block es)[k]?.getD 0 % bc)) (E k))
        (runKeys Element.block es).length) := by
  unfold Cgbr.read
  have hs : (runKeys Element.block es).Pairwise (fun a b => a / bc ≤ b / bc) :=
    (runKeys_strict H).imp (fun h => Nat.div_le_div_right (Nat.le_of_lt h))
  have hrange : ∀ κ ∈ runKeys Element.block es, κ / bc < blockrows := by
    intro κ hκ
    obtain ⟨e, he, rfl⟩ := (mem_runKeys Element.block es κ).1 hκ
    exact H.row e he
  refine rowLoop (runKeys Element.block es) (· / bc) hs blockrows hrange _
    (fun k => allEnts bc fR (runKeys Element.block es) (fun k => shift 0 (fC ((runKeys Element.block es)[k]?.getD 0 % bc)) (E k)) k) ?_
  intro br hbr
  simp only [gbrOf]
  rw [Buf.get_full (by omega), ok_bind, Buf.get_full (by omega), ok_bind, if_pos (by omega), if_pos (by omega)]
  refine rowLoop_inner (runKeys Element.block es) (· / bc) hs br _
    (fun k => allEnts bc fR (runKeys Element.block es) (fun k => shift 0 (fC ((runKeys Element.block es)[k]?.getD 0 % bc)) (E k)) k) ?_
  intro k hk hkb
  have hk' : k < (runs Element.block es).length := by simpa using hk
  rw [Buf.get_ok (a := (res k).2.1) hk' (by simp [hk']), ok_bind, Buf.get_ok (a := (runKeys Element.block es)[k] % bc) hk'
    (by simp only; rw [List.getElem?_eq_getElem hk]; rfl), ok_bind, hR br (by omega), ok_bind,
    hC _ (Nat.le_of_lt (Nat.mod_lt _ H.bcPos)), ok_bind, hE k hk', allEnts_succ, List.getElem?_eq_getElem hk, Option.getD_some, hkb]
  congr 2
  simp [shift, Function.comp_def]

/-- Blocks that hold the entries of the runs and zeros hold, together, the entries and zeros. -/
theorem allEnts_zeros [Zero T] {bc : Nat} {fR : Nat → Nat} {keys : List Nat} {B B' Z : Nat → List (Ent T)} {n : Nat}
    (h : ∀ k, k < n → (B k).Perm (B' k ++ Z k)) (hz : ∀ k, k < n → ∀ z ∈ Z k, z.val = 0) :
    (allEnts bc fR keys B n).Perm (allEnts bc fR keys B' n ++ allEnts bc fR keys Z n) ∧ ∀ z ∈ allEnts bc fR keys Z n, z.val = 0 := by
  induction n with
  | zero => simp [allEnts]
  | succ n ih =>
    obtain ⟨i1, i2⟩ := ih (fun k hk => h k (by omega)) (fun k hk => hz k (by omega))
    rw [allEnts_succ, allEnts_succ, allEnts_succ]
    constructor
    · have hn : (shift (fR ((keys[n]?.getD 0) / bc)) 0 (B n)).Perm
          (shift (fR ((keys[n]?.getD 0) / bc)) 0 (B' n) ++ shift (fR ((keys[n]?.getD 0) / bc)) 0 (Z n)) := by
        rw [← shift_append]; exact (h n (by omega)).map _
      refine (i1.append hn).trans ?_
      generalize allEnts bc fR keys B' n = a
      generalize allEnts bc fR keys Z n = z
      generalize shift _ _ (B' n) = b
      generalize shift _ _ (Z n) = w
      rw [List.append_assoc, List.append_assoc]
      refine List.Perm.append_left a ?_
      rw [← List.append_assoc, ← List.append_assoc]
      exact List.Perm.append_right w List.perm_append_comm
    · intro z hz'
      rcases List.mem_append.1 hz' with h' | h'
      · exact i2 z h'
      · obtain ⟨e, he, rfl⟩ := List.mem_map.1 h'
        exact hz n (by omega) e he

end Gsb
