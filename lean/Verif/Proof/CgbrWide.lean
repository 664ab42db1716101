import Verif.Proof.CgbrTop
import Verif.Spec.Wide
/-
`Coo_to_Cgbr` and `Cgbr2::create` with blocks larger than the small index type: CSR blocks take every local column modulo the number
`S` of small indices, COO blocks of `Cgbr2` also every local row, without notice.
-/
namespace Gsb
variable {T : Type}

/-! ### Parts of a partition -/

theorem offs_filter {off : List Nat} (hs : off.Pairwise (· ≤ ·)) {j i lo hi : Nat} (h0 : off[j]? = some lo)
    (h1 : off[j + 1]? = some hi) (hl : lo ≤ i) (hh : i < hi) :
    off.filter (fun o => decide (o ≤ i)) = off.take (j + 1) ∧ off.filter (fun o => decide (i < o)) = off.drop (j + 1) := by
  obtain ⟨hj, e0⟩ := List.getElem?_eq_some_iff.1 h0
  obtain ⟨hj1, e1⟩ := List.getElem?_eq_some_iff.1 h1
  have hd : ∀ a ∈ off.drop (j + 1), i < a := by
    intro a ha
    obtain ⟨k, hk, rfl⟩ := List.mem_iff_getElem.1 ha
    rw [List.length_drop] at hk
    rw [List.getElem_drop]
    have : off[j + 1] ≤ off[j + 1 + k] := by
      rcases Nat.eq_zero_or_pos k with rfl | hk0
      · simp
      · exact List.pairwise_iff_getElem.1 hs _ _ hj1 (by omega) (by omega)
    omega
  have ht : ∀ a ∈ off.take (j + 1), a ≤ i := by
    intro a ha
    obtain ⟨k, hk, rfl⟩ := List.mem_iff_getElem.1 ha
    rw [List.length_take] at hk
    rw [List.getElem_take]
    have : off[k] ≤ off[j] := by
      rcases Nat.lt_or_ge k j with h | h
      · exact List.pairwise_iff_getElem.1 hs _ _ (by omega) hj h
      · have : k = j := by omega
        subst this; exact Nat.le_refl _
    omega
  constructor
  · conv => lhs; rw [← List.take_append_drop (j + 1) off]
    rw [List.filter_append, List.filter_eq_self.2 (fun a ha => by simpa using ht a ha),
      List.filter_eq_nil_iff.2 (fun a ha => by have := hd a ha; simpa using this), List.append_nil]
  · conv => lhs; rw [← List.take_append_drop (j + 1) off]
    rw [List.filter_append, List.filter_eq_nil_iff.2 (fun a ha => by have := ht a ha; simpa using this),
      List.filter_eq_self.2 (fun a ha => by simpa using hd a ha), List.nil_append]

theorem blockStart_eq {off : List Nat} (hs : off.Pairwise (· ≤ ·)) {j i lo hi : Nat} (h0 : off[j]? = some lo)
    (h1 : off[j + 1]? = some hi) (hl : lo ≤ i) (hh : i < hi) : blockStart off i = lo := by
  obtain ⟨hj, e0⟩ := List.getElem?_eq_some_iff.1 h0
  unfold blockStart
  rw [(offs_filter hs h0 h1 hl hh).1, List.getLast?_take, if_neg (by omega)]
  simp [h0]

theorem blockEnd_eq {off : List Nat} (hs : off.Pairwise (· ≤ ·)) {j i lo hi : Nat} (h0 : off[j]? = some lo)
    (h1 : off[j + 1]? = some hi) (hl : lo ≤ i) (hh : i < hi) : blockEnd off i = hi := by
  unfold blockEnd
  rw [(offs_filter hs h0 h1 hl hh).2, List.head?_drop, h1, Option.getD_some]

section
variable {off : List Nat} {n total : Nat} (P : Partition off n total)
include P

theorem Partition.getElem?_offF {i : Nat} (h : i ≤ n) : off[i]? = some (offF off i) := by
  have := P.len
  rw [offF_eq (by omega)]; exact List.getElem?_eq_getElem _

theorem Partition.start_bidx {v : Nat} (hv : v < total) : blockStart off v = offF off (bidx off n v) :=
  blockStart_eq P.sorted (P.getElem?_offF (Nat.le_of_lt (P.bidx_lt hv))) (P.getElem?_offF (P.bidx_lt hv)) (P.bidx_lo hv) (P.bidx_hi hv)

theorem Partition.end_bidx {v : Nat} (hv : v < total) : blockEnd off v = offF off (bidx off n v + 1) :=
  blockEnd_eq P.sorted (P.getElem?_offF (Nat.le_of_lt (P.bidx_lt hv))) (P.getElem?_offF (P.bidx_lt hv)) (P.bidx_lo hv) (P.bidx_hi hv)

theorem Partition.start_inj {v w : Nat} (hv : v < total) (hw : w < total) :
    blockStart off v = blockStart off w ↔ bidx off n v = bidx off n w := by
  rw [P.start_bidx hv, P.start_bidx hw]
  constructor
  · intro h
    have v1 := P.bidx_lo hv
    have v2 := P.bidx_hi hv
    have w1 := P.bidx_lo hw
    have w2 := P.bidx_hi hw
    have hv' := P.bidx_lt hv
    have hw' := P.bidx_lt hw
    rcases Nat.lt_trichotomy (bidx off n v) (bidx off n w) with h' | h' | h'
    · have := P.mono (i := bidx off n v + 1) (j := bidx off n w) h' (Nat.le_of_lt hw')
      omega
    · exact h'
    · have := P.mono (i := bidx off n w + 1) (j := bidx off n v) h' (Nat.le_of_lt hv')
      omega
  · intro h; rw [h]

end

/-! ### A run has all the elements of its block -/

theorem filter_run {α : Type} (key : α → Nat) (G : List (List α)) (hs : ∀ g ∈ G, ∀ a ∈ g, key a = runKey key g)
    (hk : (G.map (runKey key)).Pairwise (· ≠ ·)) (k : Nat) (h : k < G.length) :
    G.flatten.filter (fun a => decide (key a = runKey key G[k])) = G[k] := by
  induction G generalizing k with
  | nil => simp at h
  | cons g G ih =>
    rw [List.map_cons, List.pairwise_cons] at hk
    rw [List.flatten_cons, List.filter_append]
    cases k with
    | zero =>
      simp only [List.getElem_cons_zero]
      rw [List.filter_eq_self.2 (fun a ha => by simpa using hs g (by simp) a ha), List.filter_eq_nil_iff.2, List.append_nil]
      intro a ha
      obtain ⟨g', hg', ha'⟩ := List.mem_flatten.1 ha
      have h1 := hs g' (by simp [hg']) a ha'
      have h2 := hk.1 _ (List.mem_map_of_mem (f := runKey key) hg')
      simp only [decide_eq_true_eq]
      omega
    | succ k =>
      simp only [List.getElem_cons_succ, List.length_cons] at h ⊢
      rw [ih (fun g' hg' => hs g' (by simp [hg'])) hk.2 k (by omega), List.filter_eq_nil_iff.2, List.nil_append]
      intro a ha
      have h1 := hs g (by simp) a ha
      have h2 := hk.1 _ (List.mem_map_of_mem (f := runKey key) (List.getElem_mem (by omega : k < G.length)))
      simp only [decide_eq_true_eq]
      omega

/-! ### Blocks -/

/-- The block constructor's result multiplies like the entries `L`. -/
structure MakesBlockE {β : Type} [AddMonoid T] [Mul T] (make : MakeBlock β T) (spmv : β → Buf T → Nat → Buf T → Nat → C (Buf T))
    (nonzeros : β → C Nat) (rs cs : Nat) (g : List (Element T)) (L : List (Ent T)) (r : Nat × β × List (Element T)) : Prop where
  ok : make rs cs g = .ok r
  type : r.1 < 6
  length : r.2.2.length = g.length
  mul : BlockMultiplies spmv rs cs L r.2.1
  nnz : ∃ n, nonzeros r.2.1 = .ok n

/-- A constructor whose blocks multiply like their entries moved by `loc`. -/
def GoodMakeE {β : Type} [AddMonoid T] [Mul T] (M : Nat) (make : MakeBlock β T)
    (spmv : β → Buf T → Nat → Buf T → Nat → C (Buf T)) (nonzeros : β → C Nat) (ok : Nat → Nat → List (Ent T) → Prop)
    (loc : Nat → Nat → Nat → Ent T → Ent T) : Prop :=
  ∀ rs cs (g : List (Element T)), g ≠ [] → g.length < M → rs + 1 < M → cs < M → InRange (ents g) rs cs →
    g.Pairwise (fun a b => a.row ≤ b.row) → ok rs cs (ents g) →
    ∃ r, MakesBlockE make spmv nonzeros rs cs g ((ents g).map (loc rs cs g.length)) r

/-- How `Coo_to_MatrixBlock` moves local entries. -/
def cgbrMoves (S : Nat) (choose : Nat → Nat → Nat → BlockChoice) (rs cs n : Nat) (e : Ent T) : Ent T :=
  match choose rs cs n with
  | .coo => e
  | .csr => ⟨e.row, e.col % S, e.val⟩
  | .dense => e

/-- How `BlockFactoryDefault` moves local entries. -/
def factoryMoves (S : Nat) (choose : Nat → Nat → Nat → FactoryChoice) (rs cs n : Nat) (e : Ent T) : Ent T :=
  match choose rs cs n with
  | .coo => ⟨e.row % S, e.col % S, e.val⟩
  | .csr => ⟨e.row, e.col % S, e.val⟩
  | .csrPar => ⟨e.row, e.col % S, e.val⟩
  | .dense => e

/-- When a block of each type can be made and its rows are right. -/
def wideOk (M S : Nat) (choose : Nat → Nat → Nat → BlockChoice) (rs cs : Nat) (L : List (Ent T)) : Prop :=
  match choose rs cs L.length with
  | .coo => ∀ e ∈ L, e.row < S ∧ e.col < S
  | .csr => True
  | .dense => rs * cs < M ∧ Distinct L

def wideOk2 (M : Nat) (choose : Nat → Nat → Nat → FactoryChoice) (rs cs : Nat) (L : List (Ent T)) : Prop :=
  match choose rs cs L.length with
  | .dense => rs * cs < M ∧ Distinct L
  | _ => True

section
variable [NonUnitalNonAssocSemiring T]

theorem csr_multipliesE (M S : Nat) (g : List (Element T)) (rs cs : Nat) (hlen : g.length < M) (hr : rs + 1 < M)
    (hin : InRange (ents g) rs cs) (hs : g.Pairwise (fun a b => a.row ≤ b.row)) :
    csrBuild M S g rs cs = .ok (csrOf S g rs cs) ∧ BlockMultiplies Csr.spmv rs cs (truncCols S (ents g)) (csrOf S g rs cs) ∧
      BlockMultiplies Csr.spmvSerial rs cs (truncCols S (ents g)) (csrOf S g rs cs) ∧
      (csrOf S g rs cs).nonzeros = .ok g.length := by
  have hrow : ∀ e ∈ g, (NZ.toEnt e : Ent T).row < rs := fun e he => (hin _ (List.mem_map_of_mem (f := NZ.toEnt) he)).1
  have R := csrOf_rep S g rs cs hrow hs
  have hin' : ∀ e ∈ truncCols S (ents g), e.row < rs ∧ e.col < cs := by
    intro e he
    obtain ⟨a, ha, rfl⟩ := List.mem_map.1 he
    exact ⟨(hin a ha).1, Nat.lt_of_le_of_lt (Nat.mod_le _ _) (hin a ha).2⟩
  refine ⟨csrBuild_spec M S g rs cs hlen hr hrow, ?_, ?_, ?_⟩
  · intro nx ny xo yo x y hx hy
    rw [← spmvInOrder_eq_sum]
    exact spmvCsr_spec R x y (fun e he => by have := hin' e he; omega) hy
  · intro nx ny xo yo x y hx hy
    rw [← spmvInOrder_eq_sum]
    exact spmvCsrSerial_spec R x y (fun e he => by have := hin' e he; omega) hy
  · unfold Csr.nonzeros
    simp only [csrOf]
    rw [Buf.get_full (by omega), if_pos (Nat.le_refl _), countP_lt_all g (fun e => (NZ.toEnt e : Ent T).row) rs hrow]

theorem mkCoo_multipliesE (M S : Nat) (g : List (Element T)) (rs cs : Nat) (hin : InRange (ents g) rs cs) :
    ∃ A, mkCoo M S g = .ok (A, sortTripletsMorton M g) ∧ A.nnz = g.length ∧
      BlockMultiplies Coo.spmv rs cs (truncBoth S (ents g)) A := by
  have hp := sortMorton_perm M g
  have hpe : (truncBoth S (ents (sortTripletsMorton M g))).Perm (truncBoth S (ents g)) := (ents_perm hp).map _
  refine ⟨⟨⟨(sortTripletsMorton M g).length, fun k => ((sortTripletsMorton M g)[k]?).map (fun e => (NZ.toEnt e : Ent T).row % S)⟩,
      ⟨(sortTripletsMorton M g).length, fun k => ((sortTripletsMorton M g)[k]?).map (fun e => (NZ.toEnt e : Ent T).col % S)⟩,
      ⟨(sortTripletsMorton M g).length, fun k => ((sortTripletsMorton M g)[k]?).map (fun e => (NZ.toEnt e).val)⟩,
      (sortTripletsMorton M g).length⟩, ?_, hp.length_eq, ?_⟩
  · unfold mkCoo
    simp only
    rw [cooFill_spec, ok_bind]
  · intro nx ny xo yo x y hx hy
    have hb : ∀ e ∈ truncBoth S (ents (sortTripletsMorton M g)), e.row < rs ∧ e.col < cs := by
      intro e he
      obtain ⟨a, ha, rfl⟩ := List.mem_map.1 (hpe.mem_iff.1 he)
      exact ⟨Nat.lt_of_le_of_lt (Nat.mod_le _ _) (hin a ha).1, Nat.lt_of_le_of_lt (Nat.mod_le _ _) (hin a ha).2⟩
    have := spmvCoo_spec (cooFill_rep S (sortTripletsMorton M g)) (nx := nx) (ny := ny) (xo := xo) (yo := yo)
      (nnz := (sortTripletsMorton M g).length) (by simp [ents, truncBoth]) x y
      (fun e he => by have := hb e he; omega) (fun e he => by have := hb e he; omega)
    unfold Coo.spmv
    rw [this, spmvInOrder_eq_sum]
    congr 2
    exact spmvSum_perm (hpe.map _) x y

theorem makes_cgbrE (M S : Nat) (choose : Nat → Nat → Nat → BlockChoice) (serial : Bool) :
    GoodMakeE M (cooToMatrixBlock M S choose : MakeBlock (MatrixBlock T) T)
      (if serial then MatrixBlock.spmvSerial M else MatrixBlock.spmv M) (MatrixBlock.nonzeros M) (wideOk M S choose)
      (cgbrMoves S choose) := by
  intro rs cs g hne hlen hr hc hin hs hok
  obtain ⟨a, ha⟩ := List.exists_mem_of_ne_nil g hne
  have hacs := (hin _ (List.mem_map_of_mem (f := NZ.toEnt) ha)).2
  have hl : (ents g).length = g.length := by simp [ents]
  unfold wideOk at hok
  rw [hl] at hok
  cases hch : choose rs cs g.length with
  | csr =>
    obtain ⟨h1, h2, h3, h4⟩ := csr_multipliesE M S g rs cs hlen hr hin hs
    have hm : (ents g).map (cgbrMoves S choose rs cs g.length) = truncCols S (ents g) := by
      unfold cgbrMoves truncCols; simp only [hch]
    rw [hm]
    refine ⟨(1, .csr (csrOf S g rs cs), g), ?_, by simp, rfl, ?_, ⟨_, h4⟩⟩
    · unfold cooToMatrixBlock; simp only [hch]; unfold cooToBlockCsr; simp only [if_true]; rw [h1, ok_bind]; rfl
    · cases serial
      · exact h2
      · exact h3
  | coo =>
    rw [hch] at hok
    have hm : (ents g).map (cgbrMoves S choose rs cs g.length) = ents g := by
      unfold cgbrMoves; simp only [hch, List.map_id']
    rw [hm]
    obtain ⟨A, h1, h2, h3⟩ := mkCoo_multiplies M S g rs cs hin hok
    refine ⟨(0, .coo A, sortTripletsMorton M g), ?_, by simp, (sortMorton_perm M g).length_eq, ?_, ⟨A.nnz, rfl⟩⟩
    · unfold cooToMatrixBlock; simp only [hch]; rw [cooToBlockCoo_spec M S g hok, h1, ok_bind]
    · cases serial <;> exact h3
  | dense =>
    rw [hch] at hok
    have hm : (ents g).map (cgbrMoves S choose rs cs g.length) = ents g := by
      unfold cgbrMoves; simp only [hch, List.map_id']
    rw [hm]
    obtain ⟨r, h⟩ := makes_cgbr M S choose serial rs cs g (by omega) hlen hr hin hs (by unfold cgbrOk; rw [hl, hch]; exact hok)
    exact ⟨r, h.ok, h.type, h.length, h.mul, h.nnz⟩

theorem makes_factoryE (M S : Nat) (choose : Nat → Nat → Nat → FactoryChoice) :
    GoodMakeE M (factoryDefault M S choose : MakeBlock (BlockObj T) T) BlockObj.spmv (fun b => .ok b.nnz) (wideOk2 M choose)
      (factoryMoves S choose) := by
  intro rs cs g hne hlen hr hc hin hs hok
  have hl : (ents g).length = g.length := by simp [ents]
  unfold wideOk2 at hok
  rw [hl] at hok
  cases hch : choose rs cs g.length with
  | coo =>
    have hm : (ents g).map (factoryMoves S choose rs cs g.length) = truncBoth S (ents g) := by
      unfold factoryMoves truncBoth; simp only [hch]
    rw [hm]
    obtain ⟨A, h1, h2, h3⟩ := mkCoo_multipliesE M S g rs cs hin
    refine ⟨(0, ⟨g.length, A.spmv, A.spmvP⟩, sortTripletsMorton M g), ?_, by simp, (sortMorton_perm M g).length_eq, h3, ⟨_, rfl⟩⟩
    unfold factoryDefault; simp only [hch]; rw [h1, ok_bind]
  | csr =>
    have hm : (ents g).map (factoryMoves S choose rs cs g.length) = truncCols S (ents g) := by
      unfold factoryMoves truncCols; simp only [hch]
    rw [hm]
    obtain ⟨h1, h2, h3, h4⟩ := csr_multipliesE M S g rs cs hlen hr hin hs
    refine ⟨(1, ⟨g.length, (csrOf S g rs cs).spmvSerial, (csrOf S g rs cs).spmvSerialP⟩, g), ?_, by simp, rfl, h3, ⟨_, rfl⟩⟩
    unfold factoryDefault; simp only [hch]; rw [h1, ok_bind]
  | csrPar =>
    have hm : (ents g).map (factoryMoves S choose rs cs g.length) = truncCols S (ents g) := by
      unfold factoryMoves truncCols; simp only [hch]
    rw [hm]
    obtain ⟨h1, h2, h3, h4⟩ := csr_multipliesE M S g rs cs hlen hr hin hs
    refine ⟨(4, ⟨g.length, (csrOf S g rs cs).spmv, (csrOf S g rs cs).spmvP⟩, g), ?_, by simp, rfl, h2, ⟨_, rfl⟩⟩
    unfold factoryDefault; simp only [hch]; rw [h1, ok_bind]
  | dense =>
    rw [hch] at hok
    have hm : (ents g).map (factoryMoves S choose rs cs g.length) = ents g := by
      unfold factoryMoves; simp only [hch, List.map_id']
    rw [hm]
    obtain ⟨r, h⟩ := goodMake_factory M S choose rs cs g hne hlen hr hc hin hs (by unfold factoryOk; rw [hl, hch]; exact hok)
    exact ⟨r, h.ok, h.type, h.length, h.mul, h.nnz⟩

end

/-! ### The matrix -/

section
variable {β : Type} {M : Nat} {offR offC : List Nat} {blockrows bc : Nat} {es : List (Element T)} {fR fC : Nat → Nat}

/-- `φ` is `loc` inside every block. -/
def MovesBy (loc : Nat → Nat → Nat → Ent T → Ent T) (φ : Ent T → Ent T) (fR fC : Nat → Nat) (bc : Nat) (es : List (Element T)) : Prop :=
  ∀ k (hk : k < (runs Element.block es).length), ∀ a ∈ (runs Element.block es)[k],
    let m := loc (blkRows fR bc es k) (blkCols fC bc es k) (runs Element.block es)[k].length
      (NZ.toEnt (locElem (fR (a.block / bc)) (fC (a.block % bc)) a))
    φ (NZ.toEnt a) = ⟨fR (a.block / bc) + m.row, fC (a.block % bc) + m.col, m.val⟩ ∧ m.row < blkRows fR bc es k

/-- Block `k` with its entries moved: local rows, global columns. -/
def blkEntsM (φ : Ent T → Ent T) (fR : Nat → Nat) (bc : Nat) (es : List (Element T)) (k : Nat) : List (Ent T) :=
  (((runs Element.block es)[k]?).getD []).map (fun a => ⟨(φ (NZ.toEnt a)).row - fR (a.block / bc), (φ (NZ.toEnt a)).col,
    (φ (NZ.toEnt a)).val⟩)

theorem blkEntsM_eq (φ : Ent T → Ent T) {k : Nat} (hk : k < (runs Element.block es).length) :
    blkEntsM φ fR bc es k = ((runs Element.block es)[k]).map (fun a => ⟨(φ (NZ.toEnt a)).row - fR (a.block / bc),
      (φ (NZ.toEnt a)).col, (φ (NZ.toEnt a)).val⟩) := by
  simp [blkEntsM, hk]

theorem allEnts_blkEntsM {loc : Nat → Nat → Nat → Ent T → Ent T} {φ : Ent T → Ent T} (hφ : MovesBy loc φ fR fC bc es) :
    allEnts bc fR (runKeys Element.block es) (blkEntsM φ fR bc es) (runKeys Element.block es).length = (ents es).map φ := by
  unfold allEnts
  have hmap : (List.range (runKeys Element.block es).length).map (fun k =>
      shift (fR (((runKeys Element.block es)[k]?.getD 0) / bc)) 0 (blkEntsM φ fR bc es k)) =
      (runs Element.block es).map (List.map (fun a => φ (NZ.toEnt a))) := by
    refine List.ext_getElem (by simp) ?_
    intro k h1 h2
    have hk : k < (runs Element.block es).length := by simpa using h2
    have hm := (run_mem Element.block es k hk).1
    have hkl : k < (runKeys Element.block es).length := by simpa using hk
    simp only [List.getElem_map, List.getElem_range]
    rw [blkEntsM_eq φ hk, List.getElem?_eq_getElem hkl, Option.getD_some, runKeys_getElem _ _ _ hk]
    unfold shift
    rw [List.map_map]
    refine List.map_congr_left (fun a ha => ?_)
    have h3 := (hφ k hk a ha).1
    simp only [Function.comp, ← (hm a ha).2, Nat.zero_add]
    rw [h3]
    simp only [Nat.add_sub_cancel_left]
  rw [hmap, ← List.map_flatten, (runsOK Element.block es).flat]
  simp [ents, List.map_map, Function.comp]

theorem shift_moves {loc : Nat → Nat → Nat → Ent T → Ent T} {φ : Ent T → Ent T} (hφ : MovesBy loc φ fR fC bc es)
    {k : Nat} (hk : k < (runs Element.block es).length) (yo : Nat) :
    shift yo (fC (runKey Element.block (runs Element.block es)[k] % bc))
        ((ents (runLoc fR fC bc es k)).map (loc (blkRows fR bc es k) (blkCols fC bc es k) (runLoc fR fC bc es k).length)) =
      shift yo 0 (blkEntsM φ fR bc es k) := by
  have hm := (run_mem Element.block es k hk).1
  have hl : (runLoc fR fC bc es k).length = (runs Element.block es)[k].length := by rw [runLoc_eq hk, List.length_map]
  rw [blkEntsM_eq φ hk, hl, runLoc_eq hk]
  unfold shift ents
  simp only [List.map_map]
  refine List.map_congr_left (fun a ha => ?_)
  have h1 := (hφ k hk a ha).1
  simp only [Function.comp]
  rw [h1, ← (hm a ha).2]
  simp only [Nat.add_sub_cancel_left, Nat.zero_add]

variable [AddCommMonoid T] [Mul T]

theorem gbr_blockRepE {make : MakeBlock β T} {spmv : β → Buf T → Nat → Buf T → Nat → C (Buf T)} {nonzeros : β → C Nat}
    {res : Results β T} {rows columns : Nat} {loc : Nat → Nat → Nat → Ent T → Ent T} {φ : Ent T → Ent T}
    (H : BlkIn M fR fC blockrows bc es) (hφ : MovesBy loc φ fR fC bc es)
    (hR : ∀ i, i ≤ blockrows → rd offR i = .ok (fR i)) (hC : ∀ i, i ≤ bc → rd offC i = .ok (fC i))
    (hmono : ∀ i, i < blockrows → fR i ≤ fR (i + 1))
    (hres : ∀ k, k < (runs Element.block es).length → MakesBlockE make spmv nonzeros (blkRows fR bc es k) (blkCols fC bc es k)
      (runLoc fR fC bc es k) ((ents (runLoc fR fC bc es k)).map (loc (blkRows fR bc es k) (blkCols fC bc es k)
        (runLoc fR fC bc es k).length)) (res k))
    (nx : Nat) (hx : ∀ i, i ≤ bc → fC i ≤ nx) (x : Nat → T) :
    BlockRep ((gbrOf res offR offC rows columns blockrows bc es).toBlockMat spmv nonzeros)
      bc fR fC (runKeys Element.block es) nx x (blkEntsM φ fR bc es) := by
  refine ⟨H.bcPos, runKeys_strict H, ?_, ?_, ?_, hR, fun i hi => hC i (Nat.le_of_lt hi), hmono, ?_, ?_⟩
  · intro κ hκ
    obtain ⟨e, he, rfl⟩ := (mem_runKeys Element.block es κ).1 hκ
    exact H.row e he
  · intro i hi
    have hi' : i ≤ blockrows := hi
    simp only [Gbr.toBlockMat, gbrOf]
    rw [Buf.get_full (by omega), if_pos hi']
  · intro k hk
    simp only [Gbr.toBlockMat, gbrOf]
    exact Buf.get_ok (by simpa using hk) (by simp only; rw [List.getElem?_eq_getElem hk]; rfl)
  · intro k hk ny yo y hy
    have hk' : k < (runs Element.block es).length := by simpa using hk
    have hm := (run_mem Element.block es k hk')
    obtain ⟨a, ha⟩ := List.exists_mem_of_ne_nil _ hm.2.1
    have hac := H.inC a (hm.1 a ha).1
    rw [(hm.1 a ha).2] at hac
    rw [runKeys_getElem _ _ _ hk'] at hy ⊢
    simp only [Gbr.toBlockMat, gbrOf]
    rw [Buf.get_ok (a := (res k).2.1) hk' (by simp [hk']), ok_bind]
    have hmul := (hres k hk').mul nx ny (fC (runKey Element.block (runs Element.block es)[k] % bc)) yo x y (by
      rw [blkCols_eq hk']
      have := hx (runKey Element.block (runs Element.block es)[k] % bc + 1) (Nat.mod_lt _ H.bcPos)
      omega) (by rw [blkRows_eq hk']; exact hy)
    rw [hmul, shift_moves hφ hk', visit_eq, spmvInOrder_eq_sum]
  · intro k hk e he
    have hk' : k < (runs Element.block es).length := by simpa using hk
    have hm := (run_mem Element.block es k hk').1
    rw [runKeys_getElem _ _ _ hk']
    rw [blkEntsM_eq φ hk'] at he
    obtain ⟨a, ha, rfl⟩ := List.mem_map.1 he
    obtain ⟨h1, h2⟩ := hφ k hk' a ha
    simp only [h1, Nat.add_sub_cancel_left]
    refine Nat.lt_of_lt_of_eq h2 (blkRows_eq hk')

theorem gbr_partitionE {spmv : β → Buf T → Nat → Buf T → Nat → C (Buf T)} {nonzeros : β → C Nat}
    {res : Results β T} {rows columns workers : Nat} (hw : 0 < workers)
    (hnnz : ∀ k, k < (runs Element.block es).length → ∃ n, nonzeros (res k).2.1 = .ok n) :
    ∃ P, partitionInit M workers ((gbrOf res offR offC rows columns blockrows bc es).toBlockMat spmv nonzeros) = .ok P ∧
      P.length = blockrows ∧ ∀ i, i < blockrows → ∃ c, P[i]? = some c ∧
        ChunksShape (rowPtrOf bc (runKeys Element.block es) i) (rowPtrOf bc (runKeys Element.block es) (i + 1)) c := by
  refine partitionInit_shape (M := M) _ (rowPtrOf bc (runKeys Element.block es)) hw ?_ ?_ ?_
  · intro i hi
    have hi' : i ≤ blockrows := hi
    simp only [Gbr.toBlockMat, gbrOf]
    rw [Buf.get_full (by omega), if_pos hi']; rfl
  · intro i j h; exact rowPtrOf_mono _ _ h
  · intro k hk
    have hk' : k < (runs Element.block es).length := by
      have := rowPtrOf_le bc (runKeys Element.block es) blockrows
      rw [runKeys_length] at this
      exact Nat.lt_of_lt_of_le hk this
    obtain ⟨n, hn⟩ := hnnz k hk'
    refine ⟨n, ?_⟩
    simp only [Gbr.toBlockMat, gbrOf]
    rw [Buf.get_ok (a := (res k).2.1) hk' (by simp [hk']), ok_bind, hn]

/-- Both ways to multiply. -/
theorem gbr_spmvE {make : MakeBlock β T} {spmv : β → Buf T → Nat → Buf T → Nat → C (Buf T)} {nonzeros : β → C Nat}
    {res : Results β T} {rows columns : Nat} {loc : Nat → Nat → Nat → Ent T → Ent T} {φ : Ent T → Ent T}
    (H : BlkIn M fR fC blockrows bc es) (hφ : MovesBy loc φ fR fC bc es)
    (hR : ∀ i, i ≤ blockrows → rd offR i = .ok (fR i)) (hC : ∀ i, i ≤ bc → rd offC i = .ok (fC i))
    (hmono : ∀ i, i < blockrows → fR i ≤ fR (i + 1)) (hlast : fR blockrows = rows) (hrows : rows < M)
    (hlen : 2 * (es.length + 2) ≤ M)
    (hres : ∀ k, k < (runs Element.block es).length → MakesBlockE make spmv nonzeros (blkRows fR bc es k) (blkCols fC bc es k)
      (runLoc fR fC bc es k) ((ents (runLoc fR fC bc es k)).map (loc (blkRows fR bc es k) (blkCols fC bc es k)
        (runLoc fR fC bc es k).length)) (res k))
    (nx ny : Nat) (hx : ∀ i, i ≤ bc → fC i ≤ nx) (hny : rows ≤ ny) (x y : Nat → T) (balanced : Bool) (P : List (List Nat))
    (hP : balanced = false → ∀ i, i < blockrows → ∃ c, P[i]? = some c ∧
        ChunksShape (rowPtrOf bc (runKeys Element.block es) i) (rowPtrOf bc (runKeys Element.block es) (i + 1)) c) :
    spmvBlocked M ((gbrOf res offR offC rows columns blockrows bc es).toBlockMat spmv nonzeros) balanced P
        (Buf.full nx x) (Buf.full ny y) = .ok (Buf.full ny (spmvSum ((ents es).map φ) x y)) ∧
      spmvBalanced ((gbrOf res offR offC rows columns blockrows bc es).toBlockMat spmv nonzeros)
        (Buf.full nx x) (Buf.full ny y) = .ok (Buf.full ny (spmvSum ((ents es).map φ) x y)) := by
  have R := gbr_blockRepE (offR := offR) (offC := offC) (rows := rows) (columns := columns) H hφ hR hC hmono hres nx hx x
  have hbrM := H.brM
  constructor
  · refine (spmvBlocked_spec (M := M) R ny y (by show fR blockrows ≤ ny; rw [hlast]; exact hny)
      (by show blockrows < M; omega) (by show fR blockrows < M; rw [hlast]; omega) balanced P (by
        intro hb0 bi hbi
        obtain ⟨c', c1, c2⟩ := hP hb0 bi hbi
        have h1 := rowPtrOf_le bc (runKeys Element.block es) (bi + 1)
        rw [runKeys_length] at h1
        have h2 := runs_length_le Element.block es
        have h3 := c2.short
        exact ⟨c', c1, by omega, c2.size, c2.mono, c2.first, c2.last⟩)).trans ?_
    rw [allEnts_blkEntsM hφ, visit_eq, spmvInOrder_eq_sum]
  · refine (spmvBalanced_spec R ny y (by show fR blockrows ≤ ny; rw [hlast]; exact hny)).trans ?_
    rw [allEnts_blkEntsM hφ, visit_eq, spmvInOrder_eq_sum]

end

/-! ### Elements in the order of their blocks -/

section
variable {M rows columns : Nat} {offR offC : List Nat} {blockrows blockcols : Nat} {es : List (Element T)}

/-- What is known about an element of run `k`. -/
theorem run_prepared (PR : Partition offR blockrows rows) (PC : Partition offC blockcols columns)
    (H : BlkIn M (offF offR) (offF offC) blockrows blockcols (prepared offR blockrows offC blockcols es))
    (hin : InRange (ents es) rows columns) {k : Nat}
    (hk : k < (runs Element.block (prepared offR blockrows offC blockcols es)).length) {a : Element T}
    (ha : a ∈ (runs Element.block (prepared offR blockrows offC blockcols es))[k]) :
    offF offR (a.block / blockcols) = blockStart offR a.row ∧ offF offC (a.block % blockcols) = blockStart offC a.col ∧
    blkRows (offF offR) blockcols (prepared offR blockrows offC blockcols es) k = blockEnd offR a.row - blockStart offR a.row ∧
    blkCols (offF offC) blockcols (prepared offR blockrows offC blockcols es) k = blockEnd offC a.col - blockStart offC a.col ∧
    (runs Element.block (prepared offR blockrows offC blockcols es))[k].length = blockFill offR offC (ents es) (NZ.toEnt a) ∧
    blockStart offR a.row ≤ a.row ∧ a.row < blockEnd offR a.row ∧ blockStart offC a.col ≤ a.col ∧ a.col < blockEnd offC a.col ∧
    NZ.toEnt a ∈ ents es := by
  have hm := (run_mem Element.block _ k hk).1 a ha
  obtain ⟨hb, he⟩ := mem_prepared hm.1
  have hr := hin _ he
  have hr1 : a.row < rows := hr.1
  have hr2 : a.col < columns := hr.2
  have hcl := PC.bidx_lt hr2
  have hdiv : a.block / blockcols = bidx offR blockrows a.row := by
    rw [hb]; unfold blockKey
    rw [Nat.mul_comm, Nat.mul_add_div (by omega), Nat.div_eq_of_lt hcl, Nat.add_zero]
  have hmod : a.block % blockcols = bidx offC blockcols a.col := by
    rw [hb]; unfold blockKey
    rw [Nat.mul_comm, Nat.mul_add_mod, Nat.mod_eq_of_lt hcl]
  rw [blkRows_eq hk, blkCols_eq hk, ← hm.2, hdiv, hmod, ← PR.start_bidx hr1, ← PC.start_bidx hr2, ← PR.end_bidx hr1, ← PC.end_bidx hr2]
  refine ⟨rfl, rfl, rfl, rfl, ?_, ?_, ?_, ?_, ?_, he⟩
  · have hf := filter_run Element.block (runs Element.block (prepared offR blockrows offC blockcols es))
      (fun g hg a ha => (runsOK Element.block _).same g hg a ha)
      ((runKeys_strict H).imp (fun h => Nat.ne_of_lt h)) k hk
    rw [(runsOK Element.block _).flat, ← hm.2] at hf
    rw [← hf, ← List.countP_eq_length_filter]
    unfold blockFill
    rw [← (ents_prepared_perm (offR := offR) (blockrows := blockrows) (offC := offC) (blockcols := blockcols) (es := es)).countP_eq]
    unfold ents
    rw [List.countP_map]
    refine List.countP_congr (fun b hbm => ?_)
    obtain ⟨hb', he'⟩ := mem_prepared hbm
    have hr' := hin _ he'
    have hr1' : b.row < rows := hr'.1
    have hr2' : b.col < columns := hr'.2
    have hcl' := PC.bidx_lt hr2'
    simp only [Function.comp, decide_eq_true_eq, NZ.toEnt, Bool.decide_and, Bool.and_eq_true]
    rw [PR.start_inj hr1' hr1, PC.start_inj hr2' hr2, hb, hb']
    unfold blockKey
    constructor
    · intro h
      have h1 := congrArg (· / blockcols) h
      have h2 := congrArg (· % blockcols) h
      rw [Nat.mul_comm, Nat.mul_add_div (by omega), Nat.div_eq_of_lt hcl', Nat.mul_comm, Nat.mul_add_div (by omega), Nat.div_eq_of_lt hcl] at h1
      rw [Nat.mul_comm, Nat.mul_add_mod, Nat.mod_eq_of_lt hcl', Nat.mul_comm, Nat.mul_add_mod, Nat.mod_eq_of_lt hcl] at h2
      exact ⟨by omega, h2⟩
    · intro h; rw [h.1, h.2]
  · rw [PR.start_bidx hr1]; exact PR.bidx_lo hr1
  · rw [PR.end_bidx hr1]; exact PR.bidx_hi hr1
  · rw [PC.start_bidx hr2]; exact PC.bidx_lo hr2
  · rw [PC.end_bidx hr2]; exact PC.bidx_hi hr2

/-- A local move as a move of the whole matrix. -/
def inBlock (loc : Nat → Nat → Nat → Ent T → Ent T) (offR offC : List Nat) (L : List (Ent T)) (e : Ent T) : Ent T :=
  let m := loc (blockEnd offR e.row - blockStart offR e.row) (blockEnd offC e.col - blockStart offC e.col)
    (blockFill offR offC L e) ⟨e.row - blockStart offR e.row, e.col - blockStart offC e.col, e.val⟩
  ⟨blockStart offR e.row + m.row, blockStart offC e.col + m.col, m.val⟩

theorem movesBy_prepared (PR : Partition offR blockrows rows) (PC : Partition offC blockcols columns)
    (H : BlkIn M (offF offR) (offF offC) blockrows blockcols (prepared offR blockrows offC blockcols es))
    (hin : InRange (ents es) rows columns) (loc : Nat → Nat → Nat → Ent T → Ent T)
    (hloc : ∀ rs cs n e, e.row < rs → (loc rs cs n e).row < rs) :
    MovesBy loc (inBlock loc offR offC (ents es)) (offF offR) (offF offC) blockcols (prepared offR blockrows offC blockcols es) := by
  intro k hk a ha
  obtain ⟨h1, h2, h3, h4, h5, h6, h7, h8, h9, -⟩ := run_prepared PR PC H hin hk ha
  simp only [h1, h2, h3, h4, h5, locElem, NZ.toEnt, inBlock]
  exact ⟨trivial, hloc _ _ _ _ (by simp only; omega)⟩

end

section
variable {β : Type} [AddCommMonoid T] [Mul T]

/-- Results of a block constructor on all blocks. -/
theorem gbr_resultsE {M : Nat} {blockrows bc : Nat} {es : List (Element T)} {fR fC : Nat → Nat}
    {make : MakeBlock β T} {spmv : β → Buf T → Nat → Buf T → Nat → C (Buf T)} {loc : Nat → Nat → Nat → Ent T → Ent T}
    {nonzeros : β → C Nat} {ok : Nat → Nat → List (Ent T) → Prop} (G : GoodMakeE M make spmv nonzeros ok loc)
    (H : BlkIn M fR fC blockrows bc es)
    (hok : ∀ k, k < (runs Element.block es).length → ok (blkRows fR bc es k) (blkCols fC bc es k) (ents (runLoc fR fC bc es k))) :
    ∃ res : Results β T, ∀ k, k < (runs Element.block es).length →
      MakesBlockE make spmv nonzeros (blkRows fR bc es k) (blkCols fC bc es k) (runLoc fR fC bc es k)
        ((ents (runLoc fR fC bc es k)).map (loc (blkRows fR bc es k) (blkCols fC bc es k) (runLoc fR fC bc es k).length)) (res k) := by
  refine choose_results (runs_length_pos _ H.ne) (fun k hk => ?_)
  obtain ⟨h1, h2, h3, h4, h5, h6⟩ := runLoc_ok H hk
  exact G _ _ _ h1 h2 h3 h4 h5 h6 (hok k hk)

end

section
variable [NonUnitalNonAssocSemiring T]

theorem cgbr2_wide_main (M S workers rows columns : Nat) (choose : Nat → Nat → Nat → FactoryChoice) (es : List (Element T))
    (offR : List Nat) (blockrows : Nat) (offC : List Nat) (blockcols : Nat)
    (PR : Partition offR blockrows rows) (PC : Partition offC blockcols columns)
    (hdense : ∀ e ∈ ents es, blockKind choose offR offC (ents es) e = .dense →
      (blockEnd offR e.row - blockStart offR e.row) * (blockEnd offC e.col - blockStart offC e.col) < M ∧ Distinct (ents es))
    (hw : 0 < workers) (hne : es ≠ []) (hlen : 2 * (es.length + 2) ≤ M) (hgrid : blockrows * blockcols < M)
    (hrows : rows + 1 < M) (hcols : columns < M) (hbr : blockrows ≤ rows) (hbc : blockcols ≤ columns)
    (hin : InRange (ents es) rows columns) :
    ∃ (res : Results (BlockObj T) T) (P : List (List Nat)) (es' : List (Element T)),
      cgbr2Create M workers (factoryDefault M S choose) es rows columns offR blockrows offC blockcols =
        .ok (⟨gbrOf res offR offC rows columns blockrows blockcols (prepared offR blockrows offC blockcols es), P⟩, es') ∧
      (∀ k, k < (runs Element.block (prepared offR blockrows offC blockcols es)).length →
        MakesBlockE (factoryDefault M S choose) BlockObj.spmv (fun b => .ok b.nnz)
          (blkRows (offF offR) blockcols (prepared offR blockrows offC blockcols es) k)
          (blkCols (offF offC) blockcols (prepared offR blockrows offC blockcols es) k)
          (runLoc (offF offR) (offF offC) blockcols (prepared offR blockrows offC blockcols es) k)
          ((ents (runLoc (offF offR) (offF offC) blockcols (prepared offR blockrows offC blockcols es) k)).map
            (factoryMoves S choose (blkRows (offF offR) blockcols (prepared offR blockrows offC blockcols es) k)
              (blkCols (offF offC) blockcols (prepared offR blockrows offC blockcols es) k)
              (runLoc (offF offR) (offF offC) blockcols (prepared offR blockrows offC blockcols es) k).length)) (res k)) ∧
      PartShape blockcols blockrows (prepared offR blockrows offC blockcols es) P ∧
      MovesBy (factoryMoves S choose) (inBlock (factoryMoves S choose) offR offC (ents es)) (offF offR) (offF offC) blockcols
        (prepared offR blockrows offC blockcols es) := by
  have H := prepared_blkIn (M := M) PR PC hne (by omega) hgrid hrows hcols hbr (by omega) hin
  have hpl := prepared_length (offR := offR) (blockrows := blockrows) (offC := offC) (blockcols := blockcols) (es := es)
  have hperm := ents_prepared_perm (offR := offR) (blockrows := blockrows) (offC := offC) (blockcols := blockcols) (es := es)
  have hφ := movesBy_prepared PR PC H hin (factoryMoves S choose) (by
    intro rs cs n e he
    unfold factoryMoves
    split
    · exact Nat.lt_of_le_of_lt (Nat.mod_le _ _) he
    all_goals exact he)
  obtain ⟨res, hres⟩ := gbr_resultsE (makes_factoryE M S choose) H (by
    intro k hk
    unfold wideOk2
    split
    · next h =>
      obtain ⟨a, ha⟩ := List.exists_mem_of_ne_nil _ (run_mem Element.block _ k hk).2.1
      obtain ⟨h1, h2, h3, h4, h5, h6, h7, h8, h9, h10⟩ := run_prepared PR PC H hin hk ha
      have hl : (ents (runLoc (offF offR) (offF offC) blockcols (prepared offR blockrows offC blockcols es) k)).length =
          blockFill offR offC (ents es) (NZ.toEnt a) := by
        rw [← h5, ents, List.length_map, runLoc_eq hk, List.length_map]
      rw [hl, h3, h4] at h
      have := hdense (NZ.toEnt a) h10 h
      rw [h3, h4]
      exact ⟨this.1, runLoc_distinct H (distinct_perm hperm.symm this.2) hk⟩
    · trivial)
  have hb := gbrBuild_spec (rows := rows) (columns := columns) (res := res) (make := factoryDefault M S choose) H
    (fun i hi => PR.rd_ok i hi) (fun i hi => PC.rd_ok i hi) (fun k hk => (hres k hk).ok)
    (fun k hk => by rw [(hres k hk).length, runLoc_length hk]) (fun k hk => (hres k hk).type)
  obtain ⟨P, hP1, -, hP2⟩ := gbr_partitionE (M := M) (offR := offR) (offC := offC) (rows := rows) (columns := columns)
    (blockrows := blockrows) (bc := blockcols) (res := res) (es := prepared offR blockrows offC blockcols es) (spmv := BlockObj.spmv) (nonzeros := fun b => .ok b.nnz) hw (fun k hk => (hres k hk).nnz)
  refine ⟨res, P, ((List.range (runs Element.block (prepared offR blockrows offC blockcols es)).length).map (fun j => (res j).2.2)).flatten,
    ?_, hres, hP2, hφ⟩
  · unfold cgbr2Create
    rw [checkPartition_ok hbr hbc (fun i hi => PR.rd_ok i hi) (fun i hi => PC.rd_ok i hi) PR.at_last PC.at_last, ok_bind,
      calculateBlockId_spec PR PC (by omega) (by omega) (by omega) hin, ok_bind]
    simp only
    unfold prepared at hb hP1
    rw [hb, ok_bind]
    have hP1' : partitionInit M workers (Cgbr2.toBlockMat (gbrOf res offR offC rows columns blockrows blockcols
          (sortElementsBlocks (es.map (withKey (blockKey offR blockrows offC blockcols)))))) = .ok P := hP1
    rw [hP1', ok_bind]; rfl

theorem cgbr2_wide (M S workers rows columns : Nat) (choose : Nat → Nat → Nat → FactoryChoice) (es : List (Element T))
    (offR : List Nat) (blockrows : Nat) (offC : List Nat) (blockcols : Nat)
    (PR : Partition offR blockrows rows) (PC : Partition offC blockcols columns)
    (hdense : ∀ e ∈ ents es, blockKind choose offR offC (ents es) e = .dense →
      (blockEnd offR e.row - blockStart offR e.row) * (blockEnd offC e.col - blockStart offC e.col) < M ∧ Distinct (ents es))
    (hw : 0 < workers) (hne : es ≠ []) (hlen : 2 * (es.length + 2) ≤ M) (hgrid : blockrows * blockcols < M)
    (hrows : rows + 1 < M) (hcols : columns < M) (hbr : blockrows ≤ rows) (hbc : blockcols ≤ columns)
    (hin : InRange (ents es) rows columns) :
    ∃ A es', cgbr2Create M workers (factoryDefault M S choose) es rows columns offR blockrows offC blockcols = .ok (A, es') ∧
      ∀ (balanced : Bool) (nx ny : Nat), columns ≤ nx → rows ≤ ny → ∀ x y : Nat → T,
        A.spmv M balanced (Buf.full nx x) (Buf.full ny y) =
          .ok (Buf.full ny (spmvSum ((ents es).map (inBlock (factoryMoves S choose) offR offC (ents es))) x y)) := by
  have H := prepared_blkIn (M := M) PR PC hne (by omega) hgrid hrows hcols hbr (by omega) hin
  have hpl := prepared_length (offR := offR) (blockrows := blockrows) (offC := offC) (blockcols := blockcols) (es := es)
  have hperm := ents_prepared_perm (offR := offR) (blockrows := blockrows) (offC := offC) (blockcols := blockcols) (es := es)
  obtain ⟨res, P, es', h1, hres, hP2, hφ⟩ := cgbr2_wide_main M S workers rows columns choose es offR blockrows offC blockcols PR PC hdense hw
    hne hlen hgrid hrows hcols hbr hbc hin
  refine ⟨_, _, h1, ?_⟩
  · intro bal nx ny hnx hny x y
    have hmono : ∀ i, i < blockrows → offF offR i ≤ offF offR (i + 1) := fun i hi => PR.mono (Nat.le_succ i) hi
    have hxx : ∀ i, i ≤ blockcols → offF offC i ≤ nx := fun i hi => Nat.le_trans (PC.le_total hi) hnx
    have := (gbr_spmvE (offR := offR) (offC := offC) (columns := columns) H hφ (fun i hi => PR.rd_ok i hi)
      (fun i hi => PC.rd_ok i hi) hmono PR.at_last (by omega) (by rw [hpl]; exact hlen) hres nx ny hxx hny x y bal P
      (fun _ => hP2)).1
    refine this.trans ?_
    rw [spmvSum_perm (hperm.map _)]

theorem cgbr_wide_main (M S workers rows columns : Nat) (choose : Nat → Nat → Nat → BlockChoice)
    (heavy : Nat → Nat → List Nat → Bool) (es : List (Element T))
    (offR : List Nat) (blockrows : Nat) (offC : List Nat) (blockcols : Nat)
    (PR : Partition offR blockrows rows) (PC : Partition offC blockcols columns)
    (hcoo : ∀ e ∈ ents es, blockKind choose offR offC (ents es) e = .coo →
      e.row - blockStart offR e.row < S ∧ e.col - blockStart offC e.col < S)
    (hdense : ∀ e ∈ ents es, blockKind choose offR offC (ents es) e = .dense →
      (blockEnd offR e.row - blockStart offR e.row) * (blockEnd offC e.col - blockStart offC e.col) < M ∧ Distinct (ents es))
    (hw : 0 < workers) (hne : es ≠ []) (hlen : 2 * (es.length + 2) ≤ M) (hgrid : blockrows * blockcols < M)
    (hrows : rows + 1 < M) (hcols : columns < M) (hbr : blockrows ≤ rows) (hbc : blockcols ≤ columns)
    (hin : InRange (ents es) rows columns) :
    ∃ (res : Results (MatrixBlock T) T) (b : Bool) (P : List (List Nat)) (es' : List (Element T)),
      cooToCgbr M S workers choose heavy es rows columns offR blockrows offC blockcols =
        .ok (⟨gbrOf res offR offC rows columns blockrows blockcols (prepared offR blockrows offC blockcols es), b, P⟩, es') ∧
      (∀ k, k < (runs Element.block (prepared offR blockrows offC blockcols es)).length →
        MakesBlockE (cooToMatrixBlock M S choose) (MatrixBlock.spmv M) (MatrixBlock.nonzeros M)
          (blkRows (offF offR) blockcols (prepared offR blockrows offC blockcols es) k)
          (blkCols (offF offC) blockcols (prepared offR blockrows offC blockcols es) k)
          (runLoc (offF offR) (offF offC) blockcols (prepared offR blockrows offC blockcols es) k)
          ((ents (runLoc (offF offR) (offF offC) blockcols (prepared offR blockrows offC blockcols es) k)).map
            (cgbrMoves S choose (blkRows (offF offR) blockcols (prepared offR blockrows offC blockcols es) k)
              (blkCols (offF offC) blockcols (prepared offR blockrows offC blockcols es) k)
              (runLoc (offF offR) (offF offC) blockcols (prepared offR blockrows offC blockcols es) k).length)) (res k)) ∧
      (∀ k, k < (runs Element.block (prepared offR blockrows offC blockcols es)).length →
        MakesBlockE (cooToMatrixBlock M S choose) (MatrixBlock.spmvSerial M) (MatrixBlock.nonzeros M)
          (blkRows (offF offR) blockcols (prepared offR blockrows offC blockcols es) k)
          (blkCols (offF offC) blockcols (prepared offR blockrows offC blockcols es) k)
          (runLoc (offF offR) (offF offC) blockcols (prepared offR blockrows offC blockcols es) k)
          ((ents (runLoc (offF offR) (offF offC) blockcols (prepared offR blockrows offC blockcols es) k)).map
            (cgbrMoves S choose (blkRows (offF offR) blockcols (prepared offR blockrows offC blockcols es) k)
              (blkCols (offF offC) blockcols (prepared offR blockrows offC blockcols es) k)
              (runLoc (offF offR) (offF offC) blockcols (prepared offR blockrows offC blockcols es) k).length)) (res k)) ∧
      (b = false → PartShape blockcols blockrows (prepared offR blockrows offC blockcols es) P) ∧
      MovesBy (cgbrMoves S choose) (inBlock (cgbrMoves S choose) offR offC (ents es)) (offF offR) (offF offC) blockcols
        (prepared offR blockrows offC blockcols es) := by
  have H := prepared_blkIn (M := M) PR PC hne (by omega) hgrid hrows hcols hbr (by omega) hin
  have hpl := prepared_length (offR := offR) (blockrows := blockrows) (offC := offC) (blockcols := blockcols) (es := es)
  have hperm := ents_prepared_perm (offR := offR) (blockrows := blockrows) (offC := offC) (blockcols := blockcols) (es := es)
  have hφ := movesBy_prepared PR PC H hin (cgbrMoves S choose) (by
    intro rs cs n e he
    unfold cgbrMoves
    split <;> exact he)
  have hok : ∀ k, k < (runs Element.block (prepared offR blockrows offC blockcols es)).length →
      wideOk M S choose (blkRows (offF offR) blockcols (prepared offR blockrows offC blockcols es) k)
        (blkCols (offF offC) blockcols (prepared offR blockrows offC blockcols es) k)
        (ents (runLoc (offF offR) (offF offC) blockcols (prepared offR blockrows offC blockcols es) k)) := by
    intro k hk
    have hl : ∀ a ∈ (runs Element.block (prepared offR blockrows offC blockcols es))[k],
        blockKind choose offR offC (ents es) (NZ.toEnt a) = choose (blkRows (offF offR) blockcols (prepared offR blockrows offC blockcols es) k)
        (blkCols (offF offC) blockcols (prepared offR blockrows offC blockcols es) k)
        (ents (runLoc (offF offR) (offF offC) blockcols (prepared offR blockrows offC blockcols es) k)).length := by
      intro a ha
      obtain ⟨h1, h2, h3, h4, h5, h6, h7, h8, h9, h10⟩ := run_prepared PR PC H hin hk ha
      have hl : (ents (runLoc (offF offR) (offF offC) blockcols (prepared offR blockrows offC blockcols es) k)).length =
          blockFill offR offC (ents es) (NZ.toEnt a) := by
        rw [← h5, ents, List.length_map, runLoc_eq hk, List.length_map]
      rw [hl, h3, h4]
      rfl
    unfold wideOk
    split
    · next h =>
      intro e he
      rw [runLoc_eq hk] at he
      simp only [ents, List.map_map] at he
      obtain ⟨a, ha, rfl⟩ := List.mem_map.1 he
      obtain ⟨h1, h2, h3, h4, h5, h6, h7, h8, h9, h10⟩ := run_prepared PR PC H hin hk ha
      have := hcoo (NZ.toEnt a) h10 ((hl a ha).trans h)
      simp only [Function.comp, NZ.toEnt, locElem, h1, h2]
      exact this
    · trivial
    · next h =>
      obtain ⟨a, ha⟩ := List.exists_mem_of_ne_nil _ (run_mem Element.block _ k hk).2.1
      obtain ⟨h1, h2, h3, h4, h5, h6, h7, h8, h9, h10⟩ := run_prepared PR PC H hin hk ha
      have := hdense (NZ.toEnt a) h10 ((hl a ha).trans h)
      rw [h3, h4]
      exact ⟨this.1, runLoc_distinct H (distinct_perm hperm.symm this.2) hk⟩
  obtain ⟨res, hres⟩ := gbr_resultsE (makes_cgbrE M S choose false) H hok
  obtain ⟨res', hres'⟩ := gbr_resultsE (makes_cgbrE M S choose true) H hok
  have hsame : ∀ k, k < (runs Element.block (prepared offR blockrows offC blockcols es)).length → res' k = res k := by
    intro k hk
    have h1 := (hres k hk).ok
    rw [(hres' k hk).ok] at h1
    injection h1
  have hresS := fun k hk => (hsame k hk) ▸ hres' k hk
  have hb := gbrBuild_spec (rows := rows) (columns := columns) (res := res) (make := cooToMatrixBlock M S choose) H
    (fun i hi => PR.rd_ok i hi) (fun i hi => PC.rd_ok i hi) (fun k hk => (hres k hk).ok)
    (fun k hk => by rw [(hres k hk).length, runLoc_length hk]) (fun k hk => (hres k hk).type)
  obtain ⟨b, hbal⟩ := isBalanced_ok (M := M) (offR := offR) (offC := offC) (rows := rows) (columns := columns)
    (blockrows := blockrows) (bc := blockcols) heavy (fun k hk => (hres k hk).nnz)
  obtain ⟨P, hP1, -, hP2⟩ := gbr_partitionE (M := M) (offR := offR) (offC := offC) (rows := rows) (columns := columns)
    (blockrows := blockrows) (spmv := MatrixBlock.spmv M) hw (fun k hk => (hres k hk).nnz)
  refine ⟨res, b, if b = true then [] else P,
    ((List.range (runs Element.block (prepared offR blockrows offC blockcols es)).length).map (fun j => (res j).2.2)).flatten,
    ?_, hres, hresS, fun hb0 => by subst hb0; exact hP2, hφ⟩
  · unfold cooToCgbr
    rw [calculateBlockId_spec PR PC (by omega) (by omega) (by omega) hin, ok_bind]
    simp only
    have hc := countBlocks_spec M _ H.ne H.len H.sortedB
    unfold prepared at hc hb hbal hP1
    rw [hc, ok_bind, checkPartition_ok hbr hbc (fun i hi => PR.rd_ok i hi) (fun i hi => PC.rd_ok i hi) PR.at_last PC.at_last,
      ok_bind, hb, ok_bind, hbal, ok_bind]
    cases b
    · simp only [Bool.false_eq_true, if_false]
      have hP1' : partitionInit M workers (Cgbr.toBlockMat M (gbrOf res offR offC rows columns blockrows blockcols
            (sortElementsBlocks (es.map (withKey (blockKey offR blockrows offC blockcols)))))) = .ok P := hP1
      rw [hP1', ok_bind]; rfl
    · simp only [if_true, ok_bind]; rfl

theorem cgbr_wide (M S workers rows columns : Nat) (choose : Nat → Nat → Nat → BlockChoice)
    (heavy : Nat → Nat → List Nat → Bool) (es : List (Element T))
    (offR : List Nat) (blockrows : Nat) (offC : List Nat) (blockcols : Nat)
    (PR : Partition offR blockrows rows) (PC : Partition offC blockcols columns)
    (hcoo : ∀ e ∈ ents es, blockKind choose offR offC (ents es) e = .coo →
      e.row - blockStart offR e.row < S ∧ e.col - blockStart offC e.col < S)
    (hdense : ∀ e ∈ ents es, blockKind choose offR offC (ents es) e = .dense →
      (blockEnd offR e.row - blockStart offR e.row) * (blockEnd offC e.col - blockStart offC e.col) < M ∧ Distinct (ents es))
    (hw : 0 < workers) (hne : es ≠ []) (hlen : 2 * (es.length + 2) ≤ M) (hgrid : blockrows * blockcols < M)
    (hrows : rows + 1 < M) (hcols : columns < M) (hbr : blockrows ≤ rows) (hbc : blockcols ≤ columns)
    (hin : InRange (ents es) rows columns) :
    ∃ A es', cooToCgbr M S workers choose heavy es rows columns offR blockrows offC blockcols = .ok (A, es') ∧
      ∀ nx ny, columns ≤ nx → rows ≤ ny → ∀ x y : Nat → T,
        A.spmv M (Buf.full nx x) (Buf.full ny y) =
          .ok (Buf.full ny (spmvSum ((ents es).map (inBlock (cgbrMoves S choose) offR offC (ents es))) x y)) ∧
        A.spmvSerial M (Buf.full nx x) (Buf.full ny y) =
          .ok (Buf.full ny (spmvSum ((ents es).map (inBlock (cgbrMoves S choose) offR offC (ents es))) x y)) := by
  have H := prepared_blkIn (M := M) PR PC hne (by omega) hgrid hrows hcols hbr (by omega) hin
  have hpl := prepared_length (offR := offR) (blockrows := blockrows) (offC := offC) (blockcols := blockcols) (es := es)
  have hperm := ents_prepared_perm (offR := offR) (blockrows := blockrows) (offC := offC) (blockcols := blockcols) (es := es)
  have hmono : ∀ i, i < blockrows → offF offR i ≤ offF offR (i + 1) := fun i hi => PR.mono (Nat.le_succ i) hi
  obtain ⟨res, b, P, es', h1, hres, hresS, hP2, hφ⟩ := cgbr_wide_main M S workers rows columns choose heavy es offR blockrows offC blockcols
    PR PC hcoo hdense hw hne hlen hgrid hrows hcols hbr hbc hin
  refine ⟨_, _, h1, ?_⟩
  · intro nx ny hnx hny x y
    have hxx : ∀ i, i ≤ blockcols → offF offC i ≤ nx := fun i hi => Nat.le_trans (PC.le_total hi) hnx
    constructor
    · refine ((gbr_spmvE (offR := offR) (offC := offC) (columns := columns) H hφ (fun i hi => PR.rd_ok i hi)
        (fun i hi => PC.rd_ok i hi) hmono PR.at_last (by omega) (by rw [hpl]; exact hlen) hres nx ny hxx hny x y b _ ?_).1).trans ?_
      · exact hP2
      · rw [spmvSum_perm (hperm.map _)]
    · refine ((gbr_spmvE (offR := offR) (offC := offC) (columns := columns) H hφ (fun i hi => PR.rd_ok i hi)
        (fun i hi => PC.rd_ok i hi) hmono PR.at_last (by omega) (by rw [hpl]; exact hlen) hresS nx ny hxx hny x y true [] ?_).2).trans ?_
      · intro h; simp at h
      · rw [spmvSum_perm (hperm.map _)]

end

end Gsb
