import Verif.Proof.ReadCgbr
import Verif.Props.Cgbr
import Verif.Props.Cross
/-
Property C49 for `Cgbr` (what its blocks denote) and C50 for `Cgbr` and `Cgbr2`.
-/
namespace Gsb
variable {T : Type} [NonUnitalNonAssocSemiring T]

/-- **C49**, CGBR: reading the blocks back gives the entries of the input, each once, and besides them only the
zeros that dense blocks store — nothing besides them when no block is dense. -/
theorem C49_cgbr_readback (M S B workers rows columns : Nat) (choose : Nat → Nat → Nat → BlockChoice)
    (heavy : Nat → Nat → List Nat → Bool) (es : List (Element T))
    (offR : List Nat) (blockrows : Nat) (offC : List Nat) (blockcols : Nat)
    (PR : Partition offR blockrows rows) (PC : Partition offC blockcols columns)
    (hBS : B ≤ S) (hSR : BlocksAtMost offR B) (hSC : BlocksAtMost offC B)
    (hdense : ∀ rs cs n, rs ≤ B → cs ≤ B → n ≤ es.length → choose rs cs n = .dense → rs * cs < M)
    (hdup : (∀ rs cs n, choose rs cs n ≠ .dense) ∨ Distinct (ents es))
    (hw : 0 < workers) (hne : es ≠ []) (hlen : 2 * (es.length + 2) ≤ M) (hgrid : blockrows * blockcols < M)
    (hrows : rows + 1 < M) (hcols : columns < M) (hbr : blockrows ≤ rows) (hbc : blockcols ≤ columns)
    (hin : InRange (ents es) rows columns) :
    ∃ A es' L Z, cooToCgbr M S workers choose heavy es rows columns offR blockrows offC blockcols = .ok (A, es') ∧
      A.read = .ok L ∧ L.Perm (ents es ++ Z) ∧ (∀ z ∈ Z, z.val = 0) ∧ ((∀ rs cs n, choose rs cs n ≠ .dense) → Z = []) := by
  obtain ⟨res, b, P, h1, h2, -, -⟩ := cgbr_mainB M S B workers rows columns choose heavy es offR blockrows offC blockcols PR PC
    hBS hSR hSC hdense hdup hw hne hlen hgrid hrows hcols hbr hbc hin
  have H := prepared_blkIn (M := M) PR PC hne (by omega) hgrid hrows hcols hbr (by omega) hin
  have hok := cgbr_allOk M S B rows columns choose es offR blockrows offC blockcols PR PC hBS hSR hSC hdense hdup H
  have hkl := runKeys_length Element.block (prepared offR blockrows offC blockcols es)
  have hall : ∀ k, ∃ E Z : List (Ent T), k < (runs Element.block (prepared offR blockrows offC blockcols es)).length →
      (∀ ro co acc, (res k).2.1.read ro co acc = .ok (acc ++ shift ro co E)) ∧
      E.Perm (ents (runLoc (offF offR) (offF offC) blockcols (prepared offR blockrows offC blockcols es) k) ++ Z) ∧
      (∀ z ∈ Z, z.val = 0) ∧ ((∀ rs cs n, choose rs cs n ≠ .dense) → Z = []) := by
    intro k
    by_cases hk : k < (runs Element.block (prepared offR blockrows offC blockcols es)).length
    · obtain ⟨a1, a2, a3, a4, a5, a6⟩ := runLoc_ok H hk
      obtain ⟨E, Z, e⟩ := block_read (h2 k hk).ok (hok k hk) a1 a2 a3 a5 a6
      exact ⟨E, Z, fun _ => e⟩
    · exact ⟨[], [], fun h => absurd h hk⟩
  choose E Z hEZ using hall
  have hread := cgbr_read (rows := rows) (columns := columns) (res := res) H (fun i hi => PR.rd_ok i hi) (fun i hi => PC.rd_ok i hi) E
    (fun k hk => (hEZ k hk).1) b P
  let keys := runKeys Element.block (prepared offR blockrows offC blockcols es)
  have hz := allEnts_zeros (bc := blockcols) (fR := offF offR) (keys := keys) (n := keys.length)
    (B := fun k => shift 0 (offF offC (keys[k]?.getD 0 % blockcols)) (E k))
    (B' := blkEnts (offF offR) blockcols (prepared offR blockrows offC blockcols es))
    (Z := fun k => shift 0 (offF offC (keys[k]?.getD 0 % blockcols)) (Z k)) (by
      intro k hk
      have hk' : k < (runs Element.block (prepared offR blockrows offC blockcols es)).length := by simpa [keys] using hk
      have hp := (hEZ k hk').2.1.map (fun e : Ent T => (⟨0 + e.row, offF offC (keys[k]?.getD 0 % blockcols) + e.col, e.val⟩ : Ent T))
      rw [List.map_append] at hp
      have hb : blkEnts (offF offR) blockcols (prepared offR blockrows offC blockcols es) k =
          (ents (runLoc (offF offR) (offF offC) blockcols (prepared offR blockrows offC blockcols es) k)).map
            (fun e : Ent T => (⟨0 + e.row, offF offC (keys[k]?.getD 0 % blockcols) + e.col, e.val⟩ : Ent T)) := by
        have hm := (run_mem Element.block _ k hk').1
        rw [blkEnts_eq _ _ _ hk', runLoc_eq hk']
        unfold ents
        rw [List.map_map, List.map_map]
        refine List.map_congr_left (fun a ha => ?_)
        have h3 := H.inC a (hm a ha).1
        have hkey : keys[k]?.getD 0 = a.block := by
          simp only [keys]
          rw [List.getElem?_eq_getElem (by simpa using hk'), Option.getD_some, runKeys_getElem _ _ _ hk', (hm a ha).2]
        rw [hkey]
        simp only [Function.comp, locElem, NZ.toEnt, Nat.zero_add]
        rw [Nat.add_sub_cancel' h3.1]
      rw [hb]
      exact hp) (by
      intro k hk z hz
      obtain ⟨e, he, rfl⟩ := List.mem_map.1 hz
      exact (hEZ k (by simpa [keys] using hk)).2.2.1 e he)
  refine ⟨_, _, _, _, h1, hread, hz.1.trans ?_, hz.2, ?_⟩
  · refine List.Perm.append_right _ ?_
    rw [allEnts_blkEnts H]
    exact ents_prepared_perm
  · intro hd
    unfold allEnts
    rw [List.flatten_eq_nil_iff]
    intro l hl
    obtain ⟨k, hk, rfl⟩ := List.mem_map.1 hl
    simp only
    rw [(hEZ k (by simpa [keys] using List.mem_range.1 hk)).2.2.2 hd]
    rfl

/-- **C50**, CGBR and CGBR2: `k` calls add the product `k` times, with the parallel and the serial
multiplication and whatever the uninitialised `balanced` of a CGBR2 holds. -/
theorem C50_repeated_cgbr (M S B workers rows columns : Nat) (choose : Nat → Nat → Nat → BlockChoice)
    (heavy : Nat → Nat → List Nat → Bool) (factory : MakeBlock (BlockObj T) T) (D : Prop) (es : List (Element T))
    (offR : List Nat) (blockrows : Nat) (offC : List Nat) (blockcols : Nat)
    (PR : Partition offR blockrows rows) (PC : Partition offC blockcols columns)
    (hBS : B ≤ S) (hSR : BlocksAtMost offR B) (hSC : BlocksAtMost offC B)
    (hdense : ∀ rs cs n, rs ≤ B → cs ≤ B → n ≤ es.length → choose rs cs n = .dense → rs * cs < M)
    (hdup : (∀ rs cs n, choose rs cs n ≠ .dense) ∨ Distinct (ents es))
    (hf : FactoryRight M B D factory) (hdup2 : D → Distinct (ents es))
    (hw : 0 < workers) (hne : es ≠ []) (hlen : 2 * (es.length + 2) ≤ M) (hgrid : blockrows * blockcols < M)
    (hrows : rows + 1 < M) (hcols : columns < M) (hbr : blockrows ≤ rows) (hbc : blockcols ≤ columns)
    (hin : InRange (ents es) rows columns) (x : Nat → T) :
    (∃ A es', cooToCgbr M S workers choose heavy es rows columns offR blockrows offC blockcols = .ok (A, es') ∧
      AddsKTimes (fun y => A.spmv M (Buf.full columns x) y) (ents es) rows columns x ∧
      AddsKTimes (fun y => A.spmvSerial M (Buf.full columns x) y) (ents es) rows columns x) ∧
    (∃ A es', cgbr2Create M workers factory es rows columns offR blockrows offC blockcols = .ok (A, es') ∧
      ∀ balanced, AddsKTimes (fun y => A.spmv M balanced (Buf.full columns x) y) (ents es) rows columns x) := by
  constructor
  · obtain ⟨A, es', h1, h2⟩ := C11_cgbr_bound M S B workers rows columns choose heavy es offR blockrows offC blockcols PR PC
      hBS hSR hSC hdense hdup hw hne hlen hgrid hrows hcols hbr hbc hin
    exact ⟨A, es', h1, addsKTimes_of hin (fun y => (h2 _ _ (Nat.le_refl _) (Nat.le_refl _) x y).1),
      addsKTimes_of hin (fun y => (h2 _ _ (Nat.le_refl _) (Nat.le_refl _) x y).2)⟩
  · obtain ⟨A, es', h1, h2⟩ := C12_cgbr2_spmv M B workers rows columns factory D es offR blockrows offC blockcols PR PC
      hSR hSC hf hdup2 hw hne hlen hgrid hrows hcols hbr hbc hin
    exact ⟨A, es', h1, fun b => addsKTimes_of hin (fun y => h2 b _ _ (Nat.le_refl _) (Nat.le_refl _) x y)⟩

end Gsb
