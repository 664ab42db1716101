import Verif.Model.Coo
import Verif.Proof.Csr
import Verif.Proof.Morton
namespace Gsb
variable {ε T : Type} [NZ ε T]

/-- The three arrays, from index `base` on, hold the entries `L`. -/
structure CooRep (L : List (Ent T)) (base : Nat) (ri ci : Buf Nat) (v : Buf T) : Prop where
  rDat : ∀ j (h : j < L.length), base + j < ri.len ∧ ri.dat (base + j) = some L[j].row
  cDat : ∀ j (h : j < L.length), base + j < ci.len ∧ ci.dat (base + j) = some L[j].col
  vDat : ∀ j (h : j < L.length), base + j < v.len ∧ v.dat (base + j) = some L[j].val

theorem spmvCoo_spec [Add T] [Mul T] {L : List (Ent T)} {base : Nat} {ri ci : Buf Nat} {v : Buf T}
    (R : CooRep L base ri ci v) {nx ny xo yo nnz : Nat} (hn : nnz = L.length) (x y : Nat → T)
    (hx : ∀ e ∈ L, xo + e.col < nx) (hy : ∀ e ∈ L, yo + e.row < ny) :
    spmvCoo v ri ci base nnz (Buf.full nx x) xo (Buf.full ny y) yo =
      .ok (Buf.full ny (spmvInOrder (shift yo xo L) x y)) := by
  subst hn
  unfold spmvCoo
  rw [forLoop_list L (Buf.full ny) (fun y e => addAt y (yo + e.row) (e.val * x (xo + e.col))) y]
  · rw [← visit_eq]
    unfold visit shift
    rw [List.foldl_map]
  · intro j y h
    have hm := List.getElem_mem h
    rw [Buf.get_ok (R.rDat j h).1 (R.rDat j h).2, ok_bind, Buf.get_ok (R.vDat j h).1 (R.vDat j h).2, ok_bind,
      Buf.get_ok (R.cDat j h).1 (R.cDat j h).2, ok_bind, macc_full (hy _ hm) (hx _ hm)]

theorem spmvCooArray_spec [Add T] [Mul T] (es : List ε) {a : Buf ε} (ha : a.len = es.length)
    (hd : ∀ j, a.dat j = es[j]?) {nx ny xo yo : Nat} (x y : Nat → T)
    (hx : ∀ e ∈ ents es, xo + e.col < nx) (hy : ∀ e ∈ ents es, yo + e.row < ny) :
    spmvCooArray a es.length (Buf.full nx x) xo (Buf.full ny y) yo =
      .ok (Buf.full ny (spmvInOrder (shift yo xo (ents es)) x y)) := by
  unfold spmvCooArray
  rw [forLoop_list es (Buf.full ny)
    (fun y e => addAt y (yo + (NZ.toEnt e).row) ((NZ.toEnt e).val * x (xo + (NZ.toEnt e).col))) y]
  · rw [← visit_eq]
    unfold visit shift ents
    rw [List.foldl_map, List.foldl_map]
  · intro j y h
    have hm : NZ.toEnt es[j] ∈ ents es := List.mem_map_of_mem (List.getElem_mem h)
    rw [Buf.get_ok (a := es[j]) (by omega) (by rw [hd]; simp [h]), ok_bind, macc_full (hy _ hm) (hx _ hm)]

/-- Entries with both coordinates stored in a type of `S` values. -/
def truncBoth (S : Nat) (L : List (Ent T)) : List (Ent T) :=
  L.map (fun e => ⟨e.row % S, e.col % S, e.val⟩)

theorem truncBoth_eq {S : Nat} {L : List (Ent T)} (h : ∀ e ∈ L, e.row < S ∧ e.col < S) :
    truncBoth S L = L := by
  unfold truncBoth
  conv => rhs; rw [← List.map_id L]
  refine List.map_congr_left (fun e he => ?_)
  simp [Nat.mod_eq_of_lt (h e he).1, Nat.mod_eq_of_lt (h e he).2]

theorem cooFill_spec (S : Nat) (es : List ε) :
    cooFill S es = .ok (⟨⟨es.length, fun k => (es[k]?).map (fun e => (NZ.toEnt e).row % S)⟩,
      ⟨es.length, fun k => (es[k]?).map (fun e => (NZ.toEnt e).col % S)⟩,
      ⟨es.length, fun k => (es[k]?).map (fun e => (NZ.toEnt e).val)⟩, es.length⟩ : Coo T) := by
  unfold cooFill
  rw [forLoop_closed' (fun i =>
    ((⟨es.length, fun k => ((es.take i)[k]?).map (fun e => (NZ.toEnt e).row % S)⟩ : Buf Nat),
     (⟨es.length, fun k => ((es.take i)[k]?).map (fun e => (NZ.toEnt e).col % S)⟩ : Buf Nat),
     (⟨es.length, fun k => ((es.take i)[k]?).map (fun e => (NZ.toEnt e).val)⟩ : Buf T)))
    (Nat.zero_le _) (by simp [Buf.uninit]) rfl]
  · rw [ok_bind]; simp
  · intro i _ hi
    have hlen : (es.take i).length = i := by simp; omega
    have htake : es.take (i + 1) = es.take i ++ [es[i]] := by
      rw [List.take_add_one]; simp [hi]
    rw [rd_ok hi, ok_bind]
    simp only
    rw [fill_put (es.take i) (fun e => (NZ.toEnt e).row % S) es[i] hlen hi, ok_bind,
      fill_put (es.take i) (fun e => (NZ.toEnt e).col % S) es[i] hlen hi, ok_bind,
      fill_put (es.take i) (fun e => (NZ.toEnt e).val) es[i] hlen hi, ok_bind, htake]

theorem cooFill_rep (S : Nat) (es : List ε) :
    CooRep (truncBoth S (ents es)) 0
      ⟨es.length, fun k => (es[k]?).map (fun e => (NZ.toEnt e).row % S)⟩
      ⟨es.length, fun k => (es[k]?).map (fun e => (NZ.toEnt e).col % S)⟩
      (⟨es.length, fun k => (es[k]?).map (fun e => (NZ.toEnt e).val)⟩ : Buf T) := by
  constructor <;>
  · intro j h
    have h' : j < es.length := by simpa [truncBoth, ents] using h
    simp [truncBoth, ents, h']

theorem forLoop_unit {n : Nat} {f : Nat → Unit → C Unit} (h : ∀ i, i < n → f i () = .ok ()) :
    forLoop 0 n () f = .ok () :=
  forLoop_closed (fun _ => ()) (Nat.zero_le _) (fun i _ hi => h i hi)

theorem checkLoop_ok (S : Nat) (es : List ε) (h : ∀ e ∈ ents es, e.row < S ∧ e.col < S) :
    forLoop 0 es.length () (fun i _ => do
      let e ← rd es i
      cassert (decide ((NZ.toEnt e).row < S) && decide ((NZ.toEnt e).col < S))) = .ok () := by
  refine forLoop_unit (fun i hi => ?_)
  have := h _ (List.mem_map_of_mem (f := NZ.toEnt) (List.getElem_mem hi))
  rw [rd_ok hi, ok_bind]
  simp [this.1, this.2]

theorem cooToBlockCoo_spec (M S : Nat) (es : List ε) (h : ∀ e ∈ ents es, e.row < S ∧ e.col < S) :
    cooToBlockCoo M S es = mkCoo M S es := by
  unfold cooToBlockCoo mkCoo
  split
  · rw [checkLoop_ok S es h]; rfl
  · rfl

theorem mkCoo_spmv [Add T] [Mul T] (M S : Nat) (es : List ε) (h : ∀ e ∈ ents es, e.row < S ∧ e.col < S)
    {nx ny xo yo : Nat} (x y : Nat → T)
    (hx : ∀ e ∈ ents es, xo + e.col < nx) (hy : ∀ e ∈ ents es, yo + e.row < ny) :
    ∃ A, mkCoo M S es = .ok (A, sortTripletsMorton M es) ∧ A.nnz = es.length ∧
      A.spmv (Buf.full nx x) xo (Buf.full ny y) yo =
        .ok (Buf.full ny (spmvInOrder (shift yo xo (ents (sortTripletsMorton M es))) x y)) := by
  have hp := ents_perm (sortMorton_perm M es)
  refine ⟨⟨⟨(sortTripletsMorton M es).length, fun k => ((sortTripletsMorton M es)[k]?).map (fun e => (NZ.toEnt e).row % S)⟩,
      ⟨(sortTripletsMorton M es).length, fun k => ((sortTripletsMorton M es)[k]?).map (fun e => (NZ.toEnt e).col % S)⟩,
      ⟨(sortTripletsMorton M es).length, fun k => ((sortTripletsMorton M es)[k]?).map (fun e => (NZ.toEnt e).val)⟩,
      (sortTripletsMorton M es).length⟩, ?_, ?_, ?_⟩
  · unfold mkCoo
    simp only
    rw [cooFill_spec, ok_bind]
  · exact (sortMorton_perm M es).length_eq
  · unfold Coo.spmv
    have R := cooFill_rep S (sortTripletsMorton M es)
    rw [truncBoth_eq (fun e he => h e (hp.mem_iff.1 he))] at R
    exact spmvCoo_spec R (by simp [ents]) x y (fun e he => hx e (hp.mem_iff.1 he))
      (fun e he => hy e (hp.mem_iff.1 he))

theorem mapM_get_ok {α : Type} (b : Buf α) (l : List Nat) (f : Nat → α)
    (h : ∀ i ∈ l, b.get i = .ok (f i)) : l.mapM (fun i => b.get i) = .ok (l.map f) := by
  induction l with
  | nil => rfl
  | cons a l ih =>
    rw [List.mapM_cons, h a (by simp), ok_bind, ih (fun i hi => h i (List.mem_cons_of_mem _ hi)), ok_bind]
    rfl

theorem toList_ofList {α : Type} (l : List α) (b : Buf α) (hl : b.len = l.length)
    (hd : ∀ i, b.dat i = l[i]?) : b.toList l.length = .ok l := by
  unfold Buf.toList
  cases l with
  | nil => rfl
  | cons a t =>
    rw [mapM_get_ok b _ (fun i => ((a :: t)[i]?).getD a)]
    · congr 1
      apply List.ext_getElem (by simp)
      intro i h1 h2
      simp only [List.getElem_map, List.getElem_range]
      rw [List.getElem?_eq_getElem h2]; rfl
    · intro i hi
      rw [List.mem_range] at hi
      rw [Buf.get_ok (a := ((a :: t)[i]?).getD a) (by omega)]
      rw [hd, List.getElem?_eq_getElem hi]; rfl

end Gsb
