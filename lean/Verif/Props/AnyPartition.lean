import Verif.Props.Outside
import Verif.Props.IoBlocked
/-
C88: block offsets that are not a partition.
-/
namespace Gsb
variable {T : Type}

/-- Index `k` lies in one of the blocks the offsets describe: between two consecutive offsets, the second excluded. -/
def InSomeBlock (off : List Nat) (k : Nat) : Prop := ∃ i lo hi, off[i]? = some lo ∧ off[i + 1]? = some hi ∧ lo ≤ k ∧ k < hi

/-- What a blocked constructor that returned has checked: no more blocks than rows and columns, the last offsets are the dimensions, and
every entry lies in a block. -/
structure Checked (offR : List Nat) (blockrows rows : Nat) (offC : List Nat) (blockcols columns : Nat) (es : List (Ent T)) : Prop where
  blockrows_le : blockrows ≤ rows
  blockcols_le : blockcols ≤ columns
  lastRow : offR[blockrows]? = some rows
  lastCol : offC[blockcols]? = some columns
  inBlock : ∀ e ∈ es, InSomeBlock offR e.row ∧ InSomeBlock offC e.col

theorem checkPartition_inv {offR offC : List Nat} {blockrows rows blockcols columns : Nat}
    (h : checkPartition offR blockrows rows offC blockcols columns = .ok ()) :
    blockrows ≤ rows ∧ blockcols ≤ columns ∧ offR[blockrows]? = some rows ∧ offC[blockcols]? = some columns := by
  obtain ⟨h1, h2⟩ := checkPartition_rd h
  unfold checkPartition at h
  obtain ⟨_, h3, h⟩ := bind_ok h
  obtain ⟨_, h4, h⟩ := bind_ok h
  exact ⟨of_decide_eq_true (cassert_inv h3), of_decide_eq_true (cassert_inv h4), rd_lt h1, rd_lt h2⟩

/-- `lo + (hi - lo)` in the index type is `hi`, also when `hi < lo`. -/
theorem addM_subM {M lo hi : Nat} (hl : lo < M) (hh : hi < M) : addM M lo (subM M hi lo) = hi := by
  unfold addM subM
  rw [Nat.add_mod_mod, Nat.mod_eq_of_lt hl, show lo + (hi + (M - lo)) = hi + M by omega, Nat.add_mod_right, Nat.mod_eq_of_lt hh]

theorem inSomeBlock_of {M b lo hi k : Nat} {off : List Nat} (hlen : off.length < M) (hM : ∀ a ∈ off, a < M) (h1 : rd off b = .ok lo)
    (h2 : rd off (addM M b 1) = .ok hi) (h3 : lo ≤ k) (h4 : k < addM M lo (subM M hi lo)) : InSomeBlock off k := by
  have hb : b < off.length := (List.getElem?_eq_some_iff.1 (rd_lt h1)).1
  rw [addM_eq (by omega)] at h2
  rw [addM_subM (hM _ (List.mem_of_getElem? (rd_lt h1))) (hM _ (List.mem_of_getElem? (rd_lt h2)))] at h4
  exact ⟨b, lo, hi, rd_lt h1, rd_lt h2, h3, h4⟩

theorem blockCoords_inBlock {M : Nat} {offR offC : List Nat} {blockcols b : Nat} (hlR : offR.length < M) (hlC : offC.length < M)
    (hR : ∀ a ∈ offR, a < M) (hC : ∀ a ∈ offC, a < M) {c : Nat × Nat × Cur} (h : blockCoords M offR offC blockcols b = .ok c) :
    GuardsP M (fun row col => InSomeBlock offR row ∧ InSomeBlock offC col) c.2.2 := by
  unfold blockCoords at h
  obtain ⟨br, -, h⟩ := bind_ok h
  obtain ⟨bc, -, h⟩ := bind_ok h
  obtain ⟨r0, h1, h⟩ := bind_ok h
  obtain ⟨c0, h2, h⟩ := bind_ok h
  obtain ⟨r1, h3, h⟩ := bind_ok h
  obtain ⟨c1, h4, h⟩ := bind_ok h
  cases h
  intro row col ha
  obtain ⟨a1, a2, a3, a4⟩ := assertInBlock_inv ha
  exact ⟨inSomeBlock_of hlR hR h1 h3 a1 a2, inSomeBlock_of hlC hC h2 h4 a3 a4⟩

theorem ents_sorted {P : Nat → Nat → Prop} {es es' : List (Element T)} (h : ∀ e ∈ ents (sortElementsBlocks es'), P e.row e.col)
    (he : ents es' = ents es) : ∀ e ∈ ents es, P e.row e.col := by
  intro e hm
  rw [← he] at hm
  exact h e ((ents_perm (List.mergeSort_perm _ _)).mem_iff.2 hm)

/-- **C88** for CSBR: the offsets may be anything — not starting at 0, decreasing, with empty blocks. -/
theorem C88_csbr [Add T] [Mul T] (M workers rows columns : Nat) (es : List (Element T))
    (offR : List Nat) (blockrows : Nat) (offC : List Nat) (blockcols : Nat) (hlR : offR.length < M) (hlC : offC.length < M)
    (hR : ∀ a ∈ offR, a < M) (hC : ∀ a ∈ offC, a < M) (r : Csbr T × List (Element T))
    (h : cooToCsbr M workers es rows columns offR blockrows offC blockcols = .ok r) :
    Checked offR blockrows rows offC blockcols columns (ents es) := by
  obtain ⟨es1, h1, h⟩ := bind_ok h
  obtain ⟨A, h2, -⟩ := bind_ok h
  have h3 := ents_sorted (csbrBuild_guards (fun _ _ => blockCoords_inBlock hlR hlC hR hC) h2) (calculateBlockId_ents h1)
  unfold csbrBuild at h2
  obtain ⟨n, -, h2⟩ := bind_ok h2
  obtain ⟨_, h4, h2⟩ := bind_ok h2
  obtain ⟨a, b, c, d⟩ := checkPartition_inv h4
  exact ⟨a, b, c, d, h3⟩

/-- **C88** for CSBR2. -/
theorem C88_csbr2 (M rows columns : Nat) (es : List (Element T))
    (offR : List Nat) (blockrows : Nat) (offC : List Nat) (blockcols : Nat) (hlR : offR.length < M) (hlC : offC.length < M)
    (hR : ∀ a ∈ offR, a < M) (hC : ∀ a ∈ offC, a < M) (r : Csbr2 T × List (Element T))
    (h : cooToCsbr2 M es rows columns offR blockrows offC blockcols = .ok r) :
    Checked offR blockrows rows offC blockcols columns (ents es) := by
  obtain ⟨es1, h1, h⟩ := bind_ok h
  obtain ⟨A, h2, -⟩ := bind_ok h
  have h3 := ents_sorted (csbr2Build_guards (fun _ _ => blockCoords_inBlock hlR hlC hR hC) h2) (calculateBlockId_ents h1)
  unfold csbr2Build at h2
  obtain ⟨n, -, h2⟩ := bind_ok h2
  obtain ⟨_, h4, h2⟩ := bind_ok h2
  obtain ⟨a, b, c, d⟩ := checkPartition_inv h4
  exact ⟨a, b, c, d, h3⟩

/-- **C88** for CGBR. -/
theorem C88_cgbr [Add T] [Mul T] [Zero T] (M S workers rows columns : Nat) (choose : Nat → Nat → Nat → BlockChoice)
    (heavy : Nat → Nat → List Nat → Bool) (es : List (Element T))
    (offR : List Nat) (blockrows : Nat) (offC : List Nat) (blockcols : Nat) (hlR : offR.length < M) (hlC : offC.length < M)
    (hR : ∀ a ∈ offR, a < M) (hC : ∀ a ∈ offC, a < M) (hlen : es.length < M) (r : Cgbr T × List (Element T))
    (h : cooToCgbr M S workers choose heavy es rows columns offR blockrows offC blockcols = .ok r) :
    Checked offR blockrows rows offC blockcols columns (ents es) := by
  obtain ⟨es1, h1, h⟩ := bind_ok h
  obtain ⟨_, h4, h⟩ := bind_ok h
  obtain ⟨_, h5, h⟩ := bind_ok h
  obtain ⟨B, h2, -⟩ := bind_ok h
  have hl : (sortElementsBlocks es1).length < M := by
    have : (sortElementsBlocks es1).length = es1.length := (List.mergeSort_perm _ _).length_eq
    have e := congrArg List.length (calculateBlockId_ents h1)
    simp only [ents, List.length_map] at e
    omega
  have h3 := ents_sorted (gbrBuild_guards (keepsLength_matrixBlock M S choose) (fun _ _ => blockCoords_inBlock hlR hlC hR hC) hl h2)
    (calculateBlockId_ents h1)
  obtain ⟨a, b, c, d⟩ := checkPartition_inv h5
  exact ⟨a, b, c, d, h3⟩

/-- **C88** for CGBR2, with any factory that leaves the number of elements alone. -/
theorem C88_cgbr2 (M workers rows columns : Nat) (factory : MakeBlock (BlockObj T) T) (hf : KeepsLength factory) (es : List (Element T))
    (offR : List Nat) (blockrows : Nat) (offC : List Nat) (blockcols : Nat) (hlR : offR.length < M) (hlC : offC.length < M)
    (hR : ∀ a ∈ offR, a < M) (hC : ∀ a ∈ offC, a < M) (hlen : es.length < M) (r : Cgbr2 T × List (Element T))
    (h : cgbr2Create M workers factory es rows columns offR blockrows offC blockcols = .ok r) :
    Checked offR blockrows rows offC blockcols columns (ents es) := by
  obtain ⟨_, h5, h⟩ := bind_ok h
  obtain ⟨es1, h1, h⟩ := bind_ok h
  obtain ⟨B, h2, -⟩ := bind_ok h
  have hl : (sortElementsBlocks es1).length < M := by
    have : (sortElementsBlocks es1).length = es1.length := (List.mergeSort_perm _ _).length_eq
    have e := congrArg List.length (calculateBlockId_ents h1)
    simp only [ents, List.length_map] at e
    omega
  have h3 := ents_sorted (gbrBuild_guards hf (fun _ _ => blockCoords_inBlock hlR hlC hR hC) hl h2) (calculateBlockId_ents h1)
  obtain ⟨a, b, c, d⟩ := checkPartition_inv h5
  exact ⟨a, b, c, d, h3⟩

end Gsb
