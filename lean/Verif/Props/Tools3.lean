import Verif.Proof.Tools3
import Verif.Props.Tools2
import Verif.Props.Broken
/-
C62–C64: the tools expanded, prepare and sort.
-/
namespace Gsb
variable {T : Type} {cv : Codec T}

/-- What the block sizes of a run must satisfy: every size is at most 2^k, the number of blocks times
2^k fits in 32 bits, and so does the number of pairs of blocks. -/
structure SizesFit (sizes : List Nat) (k : Nat) : Prop where
  small : ∀ s ∈ sizes, s ≤ 2 ^ k
  slots : sizes.length * 2 ^ k + 1 < 2 ^ 32
  k : k < 32
  sum : sizes.sum < 2 ^ 32
  grid : sizes.length * sizes.length ≤ 2 ^ 32

namespace SizesFit
variable {sizes : List Nat} {k : Nat} (F : SizesFit sizes k)
include F

theorem pow : 2 ^ k < 2 ^ 32 := Nat.pow_lt_pow_right (by decide) F.k

theorem len : sizes.length < 2 ^ 32 := by
  have : sizes.length * 1 ≤ sizes.length * 2 ^ k := Nat.mul_le_mul_left _ Nat.one_le_two_pow
  have := F.slots
  omega

theorem partition : Partition (sizeToOffset (2 ^ 32) sizes) sizes.length sizes.sum := C22_partition (2 ^ 32) sizes F.sum

theorem at_most : BlocksAtMost (sizeToOffset (2 ^ 32) sizes) (expandBlockSize (2 ^ 32) sizes) := by
  obtain ⟨o1, o2⟩ := C22_size_to_offset (2 ^ 32) sizes (fun s h => Nat.lt_of_le_of_lt (F.small s h) F.pow)
  obtain ⟨-, -, b3, -⟩ := C34_block_size (2 ^ 32) k sizes F.small (by have := F.k; omega) F.pow
  exact blocksAtMost_sizes F.sum o2 o1 b3

theorem slots_le : sizes.length * expandBlockSize (2 ^ 32) sizes + 1 < 2 ^ 32 := by
  obtain ⟨-, -, -, b4⟩ := C34_block_size (2 ^ 32) k sizes F.small (by have := F.k; omega) F.pow
  have := Nat.mul_le_mul_left sizes.length (b4 k F.small)
  have := F.slots
  omega

end SizesFit

/-! ### expanded -/

/-- What expanded does on inputs that fit, up to the name of the output. -/
theorem expandedMain_eq (hv : cv.Exact (fun _ => True)) (decimal : Nat → String) (malloc0 : Bool) (d : Disk) (fs : FS)
    (frow fcol fval fsizes out : String) (more : List String) (es : List (Ent T)) (sdata : Bytes) (k : Nat)
    (hF : Files3 4 cv fs frow fcol fval es) (hs : fs fsizes = some sdata) (hne : es ≠ [])
    (hsize : es.length * cv.size < 2 ^ 32) (F : SizesFit (items (idx 4) sdata) k)
    (hin : InRange es (items (idx 4) sdata).sum (items (idx 4) sdata).sum) :
    ∃ es1 : List (Element T), es1.length = es.length ∧
      ents es1 = relabel (slot (sizeToOffset (2 ^ 32) (items (idx 4) sdata)) (items (idx 4) sdata).length (expandBlockSize (2 ^ 32) (items (idx 4) sdata)))
        (slot (sizeToOffset (2 ^ 32) (items (idx 4) sdata)) (items (idx 4) sdata).length (expandBlockSize (2 ^ 32) (items (idx 4) sdata))) (es.mergeSort colFirst) ∧
      expandedMain cv decimal malloc0 d fs (frow :: fcol :: fval :: fsizes :: out :: more) = (do
        let name ← outName 256 246 out (".exp" ++ decimal (expandBlockSize (2 ^ 32) (items (idx 4) sdata)))
        .ok (0, (writeBinCoo 4 cv d fs name ((items (idx 4) sdata).length * expandBlockSize (2 ^ 32) (items (idx 4) sdata))
          ((items (idx 4) sdata).length * expandBlockSize (2 ^ 32) (items (idx 4) sdata)) es1).2)) := by
  obtain ⟨e0, he0⟩ := List.exists_mem_of_ne_nil es hne
  have hsz : items (idx 4) sdata ≠ [] := fun h => by
    have := hin e0 he0
    rw [h] at this
    simp at this
  obtain ⟨R, b1, b2, b3, -, b5⟩ := C39_generic_reader (w := 4) (by decide) hv fs frow fcol fval es hF hsize
    (fun e he => by have := hin e he; have := F.sum; omega)
  have hread := readSizes_items malloc0 fs fsizes sdata hs (.inl hsz) F.len
  generalize items (idx 4) sdata = sizes at *
  have P := F.partition
  have B := F.at_most
  have hM := F.slots_le
  have hin' : InRange (ents (asElements es)) sizes.sum sizes.sum := by rw [ents_asElements]; exact hin
  have hid := calculateBlockId_spec P P F.len F.len F.grid hin'
  generalize hoff : sizeToOffset (2 ^ 32) sizes = off at *
  have hK : ents ((asElements es).map (withKey (blockKey off sizes.length off sizes.length))) = es := by
    have : ents ((asElements es).map (withKey (blockKey off sizes.length off sizes.length))) = ents (asElements es) := by
      unfold ents; rw [List.map_map]; rfl
    rw [this, ents_asElements]
  have hsort := ents_sortCol ((asElements es).map (withKey (blockKey off sizes.length off sizes.length)))
  rw [hK] at hsort
  have hmem : ∀ e ∈ sortTriplets ((asElements es).map (withKey (blockKey off sizes.length off sizes.length))) false,
      e.row < sizes.sum ∧ e.col < sizes.sum ∧ e.block = blockKey off sizes.length off sizes.length e.row e.col := by
    intro e he
    obtain ⟨e', h', rfl⟩ := List.mem_map.1 ((perm_sortTriplets' false _).mem_iff.1 he)
    have := hin' _ (List.mem_map_of_mem h')
    exact ⟨this.1, this.2, rfl⟩
  have hexp := expandElements_spec P B (by omega) (by have := F.sum; omega) _ hmem
  refine ⟨(sortTriplets ((asElements es).map (withKey (blockKey off sizes.length off sizes.length))) false).map
    (moveElement (slot off sizes.length (expandBlockSize (2 ^ 32) sizes))), ?_, ?_, ?_⟩
  rotate_left 2
  · unfold expandedMain
    simp only
    rw [hread, ok_bind]
    simp only
    rw [b1, ok_bind]
    simp only
    rw [if_neg (by decide), b5, ok_bind]
    unfold expandedTool
    simp only
    rw [hoff, hid, ok_bind, hexp, ok_bind, ok_bind]
    simp only
    rw [Nat.mul_comm sizes.length, mulM_eq (by rw [Nat.mul_comm]; omega)]
  · rw [List.length_map, (perm_sortTriplets' false _).length_eq, List.length_map]
    simp [asElements]
  · rw [ents_move, hsort]

/-- **C62.** expanded: the file `out.expN`, where `N` is the common size of the new blocks, holds the
entries of the three files in column order, every coordinate moved to the slot of its block; the
dimensions in its header are the number of blocks times `N`; no other file is touched. -/
theorem C62_expanded (hv : cv.Exact (fun _ => True)) (decimal : Nat → String) (malloc0 : Bool) (d : Disk) (fs : FS)
    (frow fcol fval fsizes out : String) (more : List String) (es : List (Ent T)) (sdata : Bytes) (k N n : Nat)
    (hF : Files3 4 cv fs frow fcol fval es) (hs : fs fsizes = some sdata) (hne : es ≠ [])
    (hsize : es.length * cv.size < 2 ^ 32) (F : SizesFit (items (idx 4) sdata) k)
    (hin : InRange es (items (idx 4) sdata).sum (items (idx 4) sdata).sum)
    (hN : N = expandBlockSize (2 ^ 32) (items (idx 4) sdata)) (hn : n = (items (idx 4) sdata).length * N)
    (hout : out.utf8ByteSize < 246) (hdec : out.utf8ByteSize + 4 + (decimal N).utf8ByteSize < 256)
    (hd : d.Works (12 + es.length * (8 + cv.size)) (out ++ (".exp" ++ decimal N))) :
    ∃ fs' es' φ, expandedMain cv decimal malloc0 d fs (frow :: fcol :: fval :: fsizes :: out :: more) = .ok (0, fs') ∧
      IsStableSort colFirst es es' ∧
      (∀ i, i < (items (idx 4) sdata).sum → ExpandsTo (sizeToOffset (2 ^ 32) (items (idx 4) sdata)) N i (φ i)) ∧
      fs' (out ++ (".exp" ++ decimal N)) = some (binFile 4 cv n n (relabel φ φ es')) ∧
      InRange (relabel φ φ es') n n ∧
      ∀ m, m ≠ out ++ (".exp" ++ decimal N) → fs' m = fs m := by
  subst hN hn
  obtain ⟨es1, h1, h2, h3⟩ := expandedMain_eq hv decimal malloc0 d fs frow fcol fval fsizes out more es sdata k hF hs hne hsize F hin
  have hst := isStableSort_mergeSort totalPre_colFirst es
  have P := F.partition
  refine ⟨_, es.mergeSort colFirst, _, ?_, hst, fun i hi => expandsTo_slot P hi, FS.set_same fs _ _, ?_, fun m hm => FS.set_other _ _ hm⟩
  · rw [h3]
    have hname : outName 256 246 out (".exp" ++ decimal (expandBlockSize (2 ^ 32) (items (idx 4) sdata))) = .ok (out ++ (".exp" ++ decimal (expandBlockSize (2 ^ 32) (items (idx 4) sdata)))) := by
      unfold outName
      rw [if_pos ⟨hout, by rw [String.utf8ByteSize_append]; have : ".exp".utf8ByteSize = 4 := by decide
                           omega⟩]
    rw [hname, ok_bind, writeBinCoo_works hv _ _ _ _ _ _ (by rw [h1]; exact hd), h2]
  · intro e he
    obtain ⟨e', h', rfl⟩ := List.mem_map.1 he
    have := hin e' (hst.perm.mem_iff.1 h')
    exact ⟨slot_lt P F.at_most this.1, slot_lt P F.at_most this.2⟩

/-- C62, the name: the buffer for the name has 256 bytes, but up to 245 of them come from `out`, and
`.exp` and the block size must follow; if they do not fit the buffer overflows. -/
theorem C62_name_overflow (hv : cv.Exact (fun _ => True)) (decimal : Nat → String) (malloc0 : Bool) (d : Disk) (fs : FS)
    (frow fcol fval fsizes out : String) (more : List String) (es : List (Ent T)) (sdata : Bytes) (k : Nat)
    (hF : Files3 4 cv fs frow fcol fval es) (hs : fs fsizes = some sdata) (hne : es ≠ [])
    (hsize : es.length * cv.size < 2 ^ 32) (F : SizesFit (items (idx 4) sdata) k)
    (hin : InRange es (items (idx 4) sdata).sum (items (idx 4) sdata).sum)
    (hlong : 256 ≤ out.utf8ByteSize + 4 + (decimal (expandBlockSize (2 ^ 32) (items (idx 4) sdata))).utf8ByteSize) :
    expandedMain cv decimal malloc0 d fs (frow :: fcol :: fval :: fsizes :: out :: more) = .error .ub := by
  obtain ⟨es1, -, -, h3⟩ := expandedMain_eq hv decimal malloc0 d fs frow fcol fval fsizes out more es sdata k hF hs hne hsize F hin
  rw [h3]
  unfold outName
  rw [if_neg (by rw [String.utf8ByteSize_append]; have : ".exp".utf8ByteSize = 4 := by decide
                 omega)]
  rfl

/-- Hypotheses met: blocks of sizes 3, 1 and 4 become slots of size 4 = 2^2; and a name of 245 bytes with
a block size of seven digits is too long. -/
example : SizesFit [3, 1, 4] 2 ∧ InRange [(⟨7, 3, 5⟩ : Ent Nat), ⟨0, 4, 2⟩] [3, 1, 4].sum [3, 1, 4].sum ∧ expandBlockSize (2 ^ 32) [3, 1, 4] = 4 :=
  ⟨⟨by decide, by decide, by decide, by decide, by decide⟩, by decide, by decide +kernel⟩
example : 256 ≤ (String.ofList (List.replicate 245 'a')).utf8ByteSize + 4 + "1048576".utf8ByteSize := by decide +kernel

/-! ### prepare -/

theorem prepareIndeces_spec (malloc0 : Bool) (d : Disk) (fs : FS) (p l : List Nat) (π : Nat → Nat) (name out : String)
    (hl : ∀ i ∈ l, i < 2 ^ 32 ∧ At p i (π i)) (hne : l ≠ []) (hlen : l.length < 2 ^ 32) (hf : fs name = some (packed (idx 4) l))
    (hd : d.Works (l.length * 4) out) :
    prepareIndeces malloc0 d fs (Buf.ofList p) name out = .ok (true, fs.set out (packed (idx 4) (l.map π))) := by
  have hit : items (idx 4) (packed (idx 4) l) = l := by
    have := items_packed idx4_exact l (fun a ha => (hl a ha).1) [] (by decide)
    rwa [List.append_nil] at this
  unfold prepareIndeces
  rw [readBinArray_items (by decide) malloc0 fs name _ hf (.inl (by rw [hit]; exact hne)), ok_bind, hit]
  simp only
  rw [if_neg (by decide), toList_ofList _ _ rfl (fun _ => rfl), ok_bind, Nat.mod_eq_of_lt hlen, List.take_length, List.drop_length]
  have hm : permuteIndeces (Buf.ofList p) l = .ok (l.map π) := mapM_ok _ _ _ (fun i h => by
    have h' := (hl i h).2
    unfold At at h'
    have hlt : i < p.length := (List.getElem?_eq_some_iff.1 h').1
    exact Buf.get_ok (by exact hlt) (by exact h'))
  rw [hm, ok_bind, List.append_nil, writeBinArray_snd idx4_exact _ _ _ _ (by rw [List.length_map]; exact hd)]
  simp only
  rw [if_neg (by decide)]

theorem suffix_name (d : Disk) {cap limit : Nat} {out suffix : String} (h : out.utf8ByteSize + suffix.utf8ByteSize < cap)
    (h2 : out.utf8ByteSize < limit) : outName cap limit out suffix = .ok (out ++ suffix) := by
  unfold outName
  rw [if_pos ⟨h2, by omega⟩]

/-- The four files of prepare. -/
theorem prepareOutputs_spec (hv : cv.Exact (fun _ => True)) (decimal : Nat → String) (d : Disk) (fs : FS) (gr gc : Nat)
    (out : String) (sizes : List Nat) (es : List (Ent T)) (k N n : Nat) (F : SizesFit sizes k) (hne : es ≠ [])
    (hsize : es.length * cv.size < 2 ^ 32) (hin : InRange es sizes.sum sizes.sum)
    (hN : N = expandBlockSize (2 ^ 32) sizes) (hn : n = sizes.length * N)
    (hout : out.utf8ByteSize < 236) (hdec : out.utf8ByteSize + 8 + (decimal N).utf8ByteSize < 256)
    (hd1 : d.Works (12 + es.length * (8 + cv.size)) (out ++ ".row")) (hd2 : d.Works (24 + es.length * (12 + cv.size)) (out ++ ".block"))
    (hd3 : d.Works (12 + es.length * (8 + cv.size)) (out ++ ".col"))
    (hd4 : d.Works (12 + es.length * (8 + cv.size)) (out ++ (".col.exp" ++ decimal N))) :
    ∃ l φ, BlockOrder (sizeToOffset (2 ^ 32) sizes) sizes.length es l ∧
      (∀ i, i < sizes.sum → ExpandsTo (sizeToOffset (2 ^ 32) sizes) N i (φ i)) ∧
      (do
        let es' ← calculateBlockId (2 ^ 32) (asElements es) (sizeToOffset (2 ^ 32) sizes) sizes.length (sizeToOffset (2 ^ 32) sizes) sizes.length
        prepareOutputs cv decimal d fs gr gc out sizes es') =
      .ok ((((fs.set (out ++ ".row") (binFile 4 cv gr gc (es.mergeSort rowFirst))).set (out ++ ".block")
          (blockFile 4 cv gr gc sizes.length sizes.length (l.map Prod.fst).dedup.length l)).set (out ++ ".col")
          (binFile 4 cv gr gc (es.mergeSort colFirst))).set (out ++ (".col.exp" ++ decimal N))
          (binFile 4 cv n n (relabel φ φ (es.mergeSort colFirst)))) := by
  subst hN hn
  have P := F.partition
  have B := F.at_most
  have hM := F.slots_le
  have hin' : InRange (ents (asElements es)) sizes.sum sizes.sum := by rw [ents_asElements]; exact hin
  have hid := calculateBlockId_spec P P F.len F.len F.grid hin'
  have hnnz := nnz_lt hv hsize
  generalize hoff : sizeToOffset (2 ^ 32) sizes = off at *
  have hrow : sortTriplets ((asElements es).map (withKey (blockKey off sizes.length off sizes.length))) true =
      (sortTriplets (asElements es) true).map (withKey (blockKey off sizes.length off sizes.length)) := sortRow_withKey _ _
  have hentsK : ∀ l : List (Element T), ents (l.map (withKey (blockKey off sizes.length off sizes.length))) = ents l := by
    intro l; unfold ents; rw [List.map_map]; rfl
  have hE : ents (sortTriplets (asElements es) true) = es.mergeSort rowFirst := by rw [ents_sortRow, ents_asElements]
  have hsame : SamePlaces (es.mergeSort rowFirst) es := samePlaces_sort totalPre_rowFirst rowFirst_refl es
  have hinR : InRange (ents (sortTriplets (asElements es) true)) sizes.sum sizes.sum := by
    rw [hE]; exact fun e he => hin e (hsame.perm.mem_iff.1 he)
  have hBO := blockOrder_prepared P (sortTriplets (asElements es) true) hinR
  rw [hE] at hBO
  have hBO' := hBO.of_same hsame
  have hprep : sortElementsBlocks ((sortTriplets (asElements es) true).map (withKey (blockKey off sizes.length off sizes.length))) =
    prepared off sizes.length off sizes.length (sortTriplets (asElements es) true) := rfl
  have hlenS : (sortTriplets (asElements es) true).length = es.length := by
    rw [(perm_sortTriplets' true _).length_eq]; simp [asElements]
  have hlenP : (prepared off sizes.length off sizes.length (sortTriplets (asElements es) true)).length = es.length := by
    rw [prepared_perm.length_eq, List.length_map, hlenS]
  have hcount : countBlocks (2 ^ 32) (prepared off sizes.length off sizes.length (sortTriplets (asElements es) true)) =
      .ok ((((prepared off sizes.length off sizes.length (sortTriplets (asElements es) true)).map recOf).map Prod.fst).dedup.length) := by
    obtain ⟨es', c1, -, -, -, -, c6⟩ := C23_blocks (2 ^ 32) sizes.sum sizes.sum (sortTriplets (asElements es) true) _ _ _ _ P P F.len F.len F.grid hinR
    have he := calculateBlockId_spec P P F.len F.len F.grid hinR
    rw [c1] at he
    have he := Except.ok.inj he
    rw [he] at c6
    have c6 := c6 (by
      intro h0
      rw [h0] at hlenS
      exact hne (List.eq_nil_of_length_eq_zero hlenS.symm)) (by rw [hlenS]; exact hnnz)
    rw [hprep] at c6
    rw [c6]
    have hp := ((sortBlocks_perm ((sortTriplets (asElements es) true).map (withKey (blockKey off sizes.length off sizes.length)))).map Element.block).dedup.length_eq
    rw [← hp, hprep, List.map_map]
    rfl
  have hcol : ents (sortTriplets (prepared off sizes.length off sizes.length (sortTriplets (asElements es) true)) false) = es.mergeSort colFirst := by
    rw [ents_sortCol]
    refine sort_samePlaces totalPre_colFirst colFirst_antisymm colFirst_refl ?_
    have := hBO'.samePlaces
    rw [List.map_map] at this
    exact this
  have hmem : ∀ e ∈ sortTriplets (prepared off sizes.length off sizes.length (sortTriplets (asElements es) true)) false,
      e.row < sizes.sum ∧ e.col < sizes.sum ∧ e.block = blockKey off sizes.length off sizes.length e.row e.col := by
    intro e he
    obtain ⟨h1, h2⟩ := mem_prepared ((perm_sortTriplets' false _).mem_iff.1 he)
    have := hinR _ h2
    exact ⟨this.1, this.2, h1⟩
  have hexp := expandElements_spec P B (by omega) (by have := F.sum; omega) _ hmem
  refine ⟨_, slot off sizes.length (expandBlockSize (2 ^ 32) sizes), hBO', fun i hi => expandsTo_slot P hi, ?_⟩
  rw [hid, ok_bind]
  unfold prepareOutputs
  simp only
  rw [hrow, hoff, suffix_name d (by have : ".row".utf8ByteSize = 4 := by decide
                                    omega) (by omega), ok_bind, hprep, hcount, ok_bind,
    suffix_name d (by have : ".block".utf8ByteSize = 6 := by decide
                      omega) (by omega), ok_bind,
    suffix_name d (by have : ".col".utf8ByteSize = 4 := by decide
                      omega) (by omega), ok_bind, hexp, ok_bind]
  simp only
  rw [suffix_name d (by rw [String.utf8ByteSize_append]; have : ".col.exp".utf8ByteSize = 8 := by decide
                        omega) (by omega), ok_bind]
  have w1 := writeBinCoo_works hv d fs (out ++ ".row") gr gc
    ((sortTriplets (asElements es) true).map (withKey (blockKey off sizes.length off sizes.length)))
    (by rw [List.length_map, hlenS]; exact hd1)
  rw [w1, hentsK, hE]
  simp only
  have w2 := fun fs nb => writeBinBlocked_eq (w := 4) (by decide) hv d fs (out ++ ".block") gr gc sizes.length sizes.length nb
    (prepared off sizes.length off sizes.length (sortTriplets (asElements es) true)) hd2.opens
  rw [w2]
  rw [List.take_of_length_le (by
      rw [blockFile_length (by decide) hv, hlenP]
      exact Nat.le_min.2 ⟨hd2.kept, hd2.room⟩)]
  simp only
  have w3 := fun fs => writeBinCoo_works hv d fs (out ++ ".col") gr gc
    (sortTriplets (prepared off sizes.length off sizes.length (sortTriplets (asElements es) true)) false)
    (by rw [(perm_sortTriplets' false _).length_eq, hlenP]; exact hd3)
  rw [w3, hcol]
  simp only
  rw [writeBinCoo_works hv _ _ _ _ _ _ (by rw [List.length_map, (perm_sortTriplets' false _).length_eq, hlenP]; exact hd4), ents_move, hcol,
    Nat.mul_comm sizes.length, mulM_eq (by rw [Nat.mul_comm]; omega)]

/-- The entries of a matrix whose indices are renamed by the vector `p`, in the same order. -/
def Permuted (p : List Nat) (es es' : List (Ent T)) : Prop :=
  List.Forall₂ (fun e e' => At p e.row e'.row ∧ At p e.col e'.col ∧ e'.val = e.val) es es'

theorem permuted_relabel {p : List Nat} {es es' : List (Ent T)} (h : Permuted p es es') :
    es' = relabel (fun i => p.getD i 0) (fun i => p.getD i 0) es ∧
      ∀ e ∈ es, At p e.row (p.getD e.row 0) ∧ At p e.col (p.getD e.col 0) := by
  unfold Permuted at h
  have hat : ∀ i j, At p i j → p.getD i 0 = j := by
    intro i j hij
    unfold At at hij
    simp [List.getD, hij]
  induction h with
  | nil => exact ⟨rfl, by simp⟩
  | @cons e e' es es' h _ ih =>
    refine ⟨?_, ?_⟩
    · have ih1 := ih.1
      clear ih
      obtain ⟨r, c, v⟩ := e'
      obtain ⟨h1, h2, h3⟩ := h
      unfold relabel at ih1 ⊢
      rw [List.map_cons, ← ih1]
      beta_reduce
      rw [hat _ _ h1, hat _ _ h2, ← h3]
    · intro x hx
      rcases List.mem_cons.1 hx with rfl | hx
      · rw [hat _ _ h.1, hat _ _ h.2.1]; exact ⟨h.1, h.2.1⟩
      · exact ih.2 x hx

/-- What a run of prepare needs: the input files, an index vector that covers all indices, block sizes
that fit, names that do not clash with the temporary files, and disks that work. -/
structure PrepareRun (cv : Codec T) (decimal : Nat → String) (d : Disk) (fs : FS) (frow fcol fval fperm fsizes out : String)
    (p sizes : List Nat) (k N : Nat) (es es' : List (Ent T)) : Prop where
  files : Files3 4 cv fs frow fcol fval es
  perm : fs fperm = some (packed (idx 4) p)
  permFits : ∀ i ∈ p, i < 2 ^ 32
  sizesFile : fs fsizes = some (packed (idx 4) sizes)
  sizesFit : SizesFit sizes k
  nonempty : es ≠ []
  bytes : es.length * cv.size < 2 ^ 32
  words : es.length * 4 < 2 ^ 32
  indices : ∀ e ∈ es, e.row < 2 ^ 32 ∧ e.col < 2 ^ 32
  permuted : Permuted p es es'
  inside : InRange es' sizes.sum sizes.sum
  slotSize : N = expandBlockSize (2 ^ 32) sizes
  tmp : fcol ≠ tmpRows ∧ fval ≠ tmpRows ∧ fval ≠ tmpCols ∧ fsizes ≠ tmpRows ∧ fsizes ≠ tmpCols
  name : out.utf8ByteSize < 236 ∧ out.utf8ByteSize + 8 + (decimal N).utf8ByteSize < 256
  diskRows : d.Works (es.length * 4) tmpRows
  diskCols : d.Works (es.length * 4) tmpCols
  disk1 : d.Works (12 + es.length * (8 + cv.size)) (out ++ ".row")
  disk2 : d.Works (24 + es.length * (12 + cv.size)) (out ++ ".block")
  disk3 : d.Works (12 + es.length * (8 + cv.size)) (out ++ ".col")
  disk4 : d.Works (12 + es.length * (8 + cv.size)) (out ++ (".col.exp" ++ decimal N))

theorem prepareTool_eq (hv : cv.Exact (fun _ => True)) {decimal : Nat → String} (malloc0 : Bool) {d : Disk} {fs : FS} (gr gc : Nat)
    {frow fcol fval fperm fsizes out : String} {p sizes : List Nat} {k N : Nat} {es es' : List (Ent T)}
    (R : PrepareRun cv decimal d fs frow fcol fval fperm fsizes out p sizes k N es es') :
    ∃ l φ t1 t2, BlockOrder (sizeToOffset (2 ^ 32) sizes) sizes.length es' l ∧
      (∀ i, i < sizes.sum → ExpandsTo (sizeToOffset (2 ^ 32) sizes) N i (φ i)) ∧
      prepareTool cv decimal malloc0 d fs gr gc [frow, fcol, fval, fperm, fsizes, out] = .ok (0,
        (((((((fs.set tmpRows t1).set tmpCols t2).set (out ++ ".row") (binFile 4 cv gr gc (es'.mergeSort rowFirst))).set (out ++ ".block")
          (blockFile 4 cv gr gc sizes.length sizes.length (l.map Prod.fst).dedup.length l)).set (out ++ ".col")
          (binFile 4 cv gr gc (es'.mergeSort colFirst))).set (out ++ (".col.exp" ++ decimal N))
          (binFile 4 cv (sizes.length * N) (sizes.length * N) (relabel φ φ (es'.mergeSort colFirst)))).removeUnder tmpDir)) := by
  have hiP : items (idx 4) (packed (idx 4) p) = p := by
    have := items_packed idx4_exact p R.permFits [] (by decide)
    rwa [List.append_nil] at this
  have F := R.sizesFit
  have hiS : items (idx 4) (packed (idx 4) sizes) = sizes := by
    have := items_packed idx4_exact sizes (fun s h => Nat.lt_of_le_of_lt (F.small s h) F.pow) [] (by decide)
    rwa [List.append_nil] at this
  obtain ⟨q1, q2⟩ := permuted_relabel R.permuted
  obtain ⟨e0, he0⟩ := List.exists_mem_of_ne_nil es R.nonempty
  have hpne : p ≠ [] := by
    rintro rfl
    have := (q2 e0 he0).1
    simp [At] at this
  have hlen : es'.length = es.length := R.permuted.length_eq.symm
  have hne' : es' ≠ [] := fun h => by
    rw [h] at hlen
    exact R.nonempty (List.eq_nil_of_length_eq_zero hlen.symm)
  obtain ⟨e1, he1⟩ := List.exists_mem_of_ne_nil es' hne'
  have hsz : sizes ≠ [] := fun h => by
    have := R.inside e1 he1
    rw [h] at this
    simp at this
  have hw := R.words
  obtain ⟨t1, t2, t3, t4, t5⟩ := R.tmp
  have htt : tmpCols ≠ tmpRows := by decide
  have hp1 := prepareIndeces_spec malloc0 d fs p (es.map Ent.row) (fun i => p.getD i 0) frow tmpRows
    (fun i hi => by
      obtain ⟨e, he, rfl⟩ := List.mem_map.1 hi
      exact ⟨(R.indices e he).1, (q2 e he).1⟩)
    (by simpa using R.nonempty) (by rw [List.length_map]; omega) R.files.row (by rw [List.length_map]; exact R.diskRows)
  have hrows : (es.map Ent.row).map (fun i => p.getD i 0) = es'.map Ent.row := by
    rw [q1]; unfold relabel; rw [List.map_map, List.map_map]; rfl
  have hcols : (es.map Ent.col).map (fun i => p.getD i 0) = es'.map Ent.col := by
    rw [q1]; unfold relabel; rw [List.map_map, List.map_map]; rfl
  have hvals : es.map Ent.val = es'.map Ent.val := by
    rw [q1]; unfold relabel; rw [List.map_map]; rfl
  rw [hrows] at hp1
  generalize hfs1 : fs.set tmpRows (packed (idx 4) (es'.map Ent.row)) = fs1 at *
  have hfs1o : ∀ m, m ≠ tmpRows → fs1 m = fs m := fun m hm => by rw [← hfs1]; exact FS.set_other _ _ hm
  have hp2 := prepareIndeces_spec malloc0 d fs1 p (es.map Ent.col) (fun i => p.getD i 0) fcol tmpCols
    (fun i hi => by
      obtain ⟨e, he, rfl⟩ := List.mem_map.1 hi
      exact ⟨(R.indices e he).2, (q2 e he).2⟩)
    (by simpa using R.nonempty) (by rw [List.length_map]; omega) (by rw [hfs1o _ t1]; exact R.files.col) (by rw [List.length_map]; exact R.diskCols)
  rw [hcols] at hp2
  generalize hfs2 : fs1.set tmpCols (packed (idx 4) (es'.map Ent.col)) = fs2 at *
  have hfs2o : ∀ m, m ≠ tmpCols → fs2 m = fs1 m := fun m hm => by rw [← hfs2]; exact FS.set_other _ _ hm
  have hF2 : Files3 4 cv fs2 tmpRows tmpCols fval es' := by
    refine ⟨?_, ?_, ?_⟩
    · rw [hfs2o _ htt.symm, ← hfs1]; exact FS.set_same _ _ _
    · rw [← hfs2]; exact FS.set_same _ _ _
    · rw [hfs2o _ t3, hfs1o _ t2, R.files.val, hvals]
  obtain ⟨A, b1, b2, b3, -, b5⟩ := C39_generic_reader (w := 4) (by decide) hv fs2 tmpRows tmpCols fval es' hF2
    (by rw [hlen]; exact R.bytes) (fun e he => by have := R.inside e he; have := F.sum; omega)
  have hread := readSizes_items malloc0 fs2 fsizes (packed (idx 4) sizes) (by rw [hfs2o _ t5, hfs1o _ t4]; exact R.sizesFile)
    (.inl (by rw [hiS]; exact hsz)) (by rw [hiS]; exact F.len)
  rw [hiS] at hread
  obtain ⟨l, φ, o1, o2, o3⟩ := prepareOutputs_spec hv decimal d fs2 gr gc out sizes es' k N (sizes.length * N) F hne'
    (by rw [hlen]; exact R.bytes) R.inside R.slotSize rfl R.name.1 R.name.2 (by rw [hlen]; exact R.disk1) (by rw [hlen]; exact R.disk2)
    (by rw [hlen]; exact R.disk3) (by rw [hlen]; exact R.disk4)
  refine ⟨l, φ, packed (idx 4) (es'.map Ent.row), packed (idx 4) (es'.map Ent.col), o1, o2, ?_⟩
  rw [hfs1, hfs2]
  unfold prepareTool
  simp only
  rw [readBinArray_items (by decide) malloc0 fs fperm _ R.perm (.inl (by rw [hiP]; exact hpne)), ok_bind, hiP]
  simp only
  rw [if_neg (by decide), hp1, ok_bind]
  simp only
  rw [if_pos trivial, hp2, ok_bind]
  simp only
  rw [if_pos trivial, hread, ok_bind]
  simp only
  rw [b1, ok_bind]
  simp only
  rw [if_neg (by decide), b5, ok_bind, b2, b3]
  simp only [Option.getD_none]
  rw [← bind_assoc, o3, ok_bind]

/-- **C63.** prepare writes four files: `out.row`, `out.col` and `out.block` hold the entries renamed by
the permutation vector in the order of rows, columns and blocks; `out.col.expN` holds the entries of
`out.col` moved to equal slots, with the right dimensions.  But the numbers of rows and columns in the
headers of the first three are arbitrary.  Nothing else changes, except that everything in the
temporary directory is deleted. -/
theorem C63_prepare (hv : cv.Exact (fun _ => True)) {decimal : Nat → String} (malloc0 : Bool) {d : Disk} {fs : FS} (gr gc : Nat)
    {frow fcol fval fperm fsizes out : String} {p sizes : List Nat} {k N : Nat} {es es' : List (Ent T)}
    (R : PrepareRun cv decimal d fs frow fcol fval fperm fsizes out p sizes k N es es')
    (hout : ¬ tmpDir.toList <+: out.toList) :
    ∃ fs' esR esC l φ, prepareTool cv decimal malloc0 d fs gr gc [frow, fcol, fval, fperm, fsizes, out] = .ok (0, fs') ∧
      IsStableSort rowFirst es' esR ∧ fs' (out ++ ".row") = some (binFile 4 cv gr gc esR) ∧
      BlockOrder (sizeToOffset (2 ^ 32) sizes) sizes.length es' l ∧
      fs' (out ++ ".block") = some (blockFile 4 cv gr gc sizes.length sizes.length (l.map Prod.fst).dedup.length l) ∧
      IsStableSort colFirst es' esC ∧ fs' (out ++ ".col") = some (binFile 4 cv gr gc esC) ∧
      (∀ i, i < sizes.sum → ExpandsTo (sizeToOffset (2 ^ 32) sizes) N i (φ i)) ∧
      fs' (out ++ (".col.exp" ++ decimal N)) = some (binFile 4 cv (sizes.length * N) (sizes.length * N) (relabel φ φ esC)) ∧
      (∀ m, m ∉ [out ++ ".row", out ++ ".block", out ++ ".col", out ++ (".col.exp" ++ decimal N)] → ¬ tmpDir.toList <+: m.toList → fs' m = fs m) ∧
      ∀ m, tmpDir.toList <+: m.toList → fs' m = none := by
  obtain ⟨l, φ, t1, t2, o1, o2, o3⟩ := prepareTool_eq hv malloc0 gr gc R
  have hpre : ∀ s : String, s.toList.head? = some '.' → ¬ tmpDir.toList <+: (out ++ s).toList := by
    intro s hs h
    rw [String.toList_append] at h
    cases hl : s.toList with
    | nil => rw [hl] at hs; simp at hs
    | cons c r =>
      rw [hl] at hs h
      simp only [List.head?_cons, Option.some.injEq] at hs
      exact hout (prefix_of_append h (by rw [hs]; decide))
  have n1 := hpre ".row" (by decide)
  have n2 := hpre ".block" (by decide)
  have n3 := hpre ".col" (by decide)
  have n4 := hpre (".col.exp" ++ decimal N) (by rw [String.toList_append]; rfl)
  have hdot : ∀ s : String, s.length < 8 → out ++ s ≠ out ++ (".col.exp" ++ decimal N) := by
    intro s hs h
    have := congrArg String.length (append_left_cancel' h)
    rw [String.length_append] at this
    have h8 : ".col.exp".length = 8 := by decide
    omega
  have d1 := hdot ".row" (by decide)
  have d2 := hdot ".block" (by decide)
  have d3 := hdot ".col" (by decide)
  have d12 : out ++ ".row" ≠ out ++ ".block" := fun h => absurd (append_left_cancel' h) (by decide)
  have d13 : out ++ ".row" ≠ out ++ ".col" := fun h => absurd (append_left_cancel' h) (by decide)
  have d23 : out ++ ".block" ≠ out ++ ".col" := fun h => absurd (append_left_cancel' h) (by decide)
  have hun : ∀ (g : FS) (m : String), ¬ tmpDir.toList <+: m.toList → g.removeUnder tmpDir m = g m := by
    intro g m hm
    unfold FS.removeUnder
    rw [if_neg (by rw [List.isPrefixOf_iff_prefix]; exact hm)]
  refine ⟨_, es'.mergeSort rowFirst, es'.mergeSort colFirst, l, φ, o3, isStableSort_mergeSort totalPre_rowFirst es', ?_, o1, ?_,
    isStableSort_mergeSort totalPre_colFirst es', ?_, o2, ?_, ?_, ?_⟩
  · rw [hun _ _ n1, FS.set_other _ _ d1, FS.set_other _ _ d13, FS.set_other _ _ d12, FS.set_same]
  · rw [hun _ _ n2, FS.set_other _ _ d2, FS.set_other _ _ d23, FS.set_same]
  · rw [hun _ _ n3, FS.set_other _ _ d3, FS.set_same]
  · rw [hun _ _ n4, FS.set_same]
  · intro m hm hm'
    simp only [List.mem_cons, List.not_mem_nil, or_false, not_or] at hm
    have hr : m ≠ tmpRows := by rintro rfl; exact hm' (by decide)
    have hc : m ≠ tmpCols := by rintro rfl; exact hm' (by decide)
    rw [hun _ _ hm', FS.set_other _ _ hm.2.2.2, FS.set_other _ _ hm.2.2.1, FS.set_other _ _ hm.2.1, FS.set_other _ _ hm.1,
      FS.set_other _ _ hc, FS.set_other _ _ hr]
  · intro m hm
    unfold FS.removeUnder
    rw [if_pos (by rw [List.isPrefixOf_iff_prefix]; exact hm)]

/-- C63, the temporary directory: an output name inside it loses all four files, with status 0. -/
theorem C63_own_directory (hv : cv.Exact (fun _ => True)) {decimal : Nat → String} (malloc0 : Bool) {d : Disk} {fs : FS} (gr gc : Nat)
    {frow fcol fval fperm fsizes out : String} {p sizes : List Nat} {k N : Nat} {es es' : List (Ent T)}
    (R : PrepareRun cv decimal d fs frow fcol fval fperm fsizes out p sizes k N es es')
    (hout : tmpDir.toList <+: out.toList) :
    ∃ fs', prepareTool cv decimal malloc0 d fs gr gc [frow, fcol, fval, fperm, fsizes, out] = .ok (0, fs') ∧
      ∀ s : String, fs' (out ++ s) = none := by
  obtain ⟨l, φ, t1, t2, -, -, o3⟩ := prepareTool_eq hv malloc0 gr gc R
  refine ⟨_, o3, fun s => ?_⟩
  unfold FS.removeUnder
  rw [if_pos (by rw [List.isPrefixOf_iff_prefix, String.toList_append]; exact hout.trans (List.prefix_append _ _))]

theorem prepareIndeces_no_room (malloc0 : Bool) (d : Disk) (fs : FS) (p l : List Nat) (π : Nat → Nat) (name out : String)
    (hl : ∀ i ∈ l, i < 2 ^ 32 ∧ At p i (π i)) (hne : l ≠ []) (hlen : l.length < 2 ^ 32) (hf : fs name = some (packed (idx 4) l))
    (hd : d.opens out = false ∨ d.room < l.length * 4) :
    ∃ fs', prepareIndeces malloc0 d fs (Buf.ofList p) name out = .ok (false, fs') ∧ ∀ m, m ≠ out → fs' m = fs m := by
  have hit : items (idx 4) (packed (idx 4) l) = l := by
    have := items_packed idx4_exact l (fun a ha => (hl a ha).1) [] (by decide)
    rwa [List.append_nil] at this
  have hm : permuteIndeces (Buf.ofList p) l = .ok (l.map π) := mapM_ok _ _ _ (fun i h => by
    have h' := (hl i h).2
    unfold At at h'
    have hlt : i < p.length := (List.getElem?_eq_some_iff.1 h').1
    exact Buf.get_ok (by exact hlt) (by exact h'))
  have hw : (writeBinArray (idx 4) d fs out (l.map π)).1 < 0 := by
    by_cases ho : d.opens out = true
    · obtain ⟨ret, fs', e, -, h2, -⟩ := C37_array_short_write idx4_exact d fs out (l.map π) ho
      rw [e, h2.2 (by
        rw [packed_length idx4_exact, List.length_map]
        exact hd.resolve_left (by simp [ho]))]
      show (-2 : Int) < 0
      decide
    · unfold writeBinArray; rw [if_neg ho]; show (-1 : Int) < 0; decide
  refine ⟨(writeBinArray (idx 4) d fs out (l.map π)).2, ?_, fun m hm => ?_⟩
  · unfold prepareIndeces
    rw [readBinArray_items (by decide) malloc0 fs name _ hf (.inl (by rw [hit]; exact hne)), ok_bind, hit]
    simp only
    rw [if_neg (by decide), toList_ofList _ _ rfl (fun _ => rfl), ok_bind, Nat.mod_eq_of_lt hlen, List.take_length, List.drop_length]
    rw [hm, ok_bind, List.append_nil, if_pos hw]
  · unfold writeBinArray
    split
    · exact FS.set_other _ _ hm
    · rfl

/-- **C63**, no room for the temporary files: if one of them cannot be opened or not be written to the end, prepare
ends with status 1 and no file outside the temporary directory changes (in particular no output is written). -/
theorem C63_no_room (cv : Codec T) (decimal : Nat → String) (malloc0 : Bool) (d : Disk) (fs : FS) (gr gc : Nat)
    (frow fcol fval fperm fsizes out : String) (p : List Nat) (es es' : List (Ent T))
    (hrow : fs frow = some (packed (idx 4) (es.map Ent.row))) (hcol : fs fcol = some (packed (idx 4) (es.map Ent.col)))
    (hperm : fs fperm = some (packed (idx 4) p)) (hp : ∀ i ∈ p, i < 2 ^ 32) (hne : es ≠ []) (hlen : es.length < 2 ^ 32)
    (hin : ∀ e ∈ es, e.row < 2 ^ 32 ∧ e.col < 2 ^ 32) (hpe : Permuted p es es') (htmp : fcol ≠ tmpRows)
    (hkept : es.length * 4 ≤ d.kept)
    (hd : d.opens tmpRows = false ∨ d.opens tmpCols = false ∨ d.room < es.length * 4) :
    ∃ fs', prepareTool cv decimal malloc0 d fs gr gc [frow, fcol, fval, fperm, fsizes, out] = .ok (1, fs') ∧
      ∀ m, ¬ tmpDir.toList <+: m.toList → fs' m = fs m := by
  have hiP : items (idx 4) (packed (idx 4) p) = p := by
    have := items_packed idx4_exact p hp [] (by decide)
    rwa [List.append_nil] at this
  obtain ⟨q1, q2⟩ := permuted_relabel hpe
  obtain ⟨e0, he0⟩ := List.exists_mem_of_ne_nil es hne
  have hpne : p ≠ [] := by
    rintro rfl
    have := (q2 e0 he0).1
    simp [At] at this
  have hR : ∀ i ∈ es.map Ent.row, i < 2 ^ 32 ∧ At p i (p.getD i 0) := fun i hi => by
    obtain ⟨e, he, rfl⟩ := List.mem_map.1 hi
    exact ⟨(hin e he).1, (q2 e he).1⟩
  have hC : ∀ i ∈ es.map Ent.col, i < 2 ^ 32 ∧ At p i (p.getD i 0) := fun i hi => by
    obtain ⟨e, he, rfl⟩ := List.mem_map.1 hi
    exact ⟨(hin e he).2, (q2 e he).2⟩
  have nr : ∀ m : String, ¬ tmpDir.toList <+: m.toList → m ≠ tmpRows ∧ m ≠ tmpCols := fun m hm =>
    ⟨by rintro rfl; exact hm (by decide), by rintro rfl; exact hm (by decide)⟩
  unfold prepareTool
  simp only
  rw [readBinArray_items (by decide) malloc0 fs fperm _ hperm (.inl (by rw [hiP]; exact hpne)), ok_bind, hiP]
  simp only
  rw [if_neg (by decide)]
  by_cases h1 : d.opens tmpRows = false ∨ d.room < es.length * 4
  · obtain ⟨fs', e1, e2⟩ := prepareIndeces_no_room malloc0 d fs p (es.map Ent.row) (fun i => p.getD i 0) frow tmpRows hR
      (by simpa using hne) (by rw [List.length_map]; exact hlen) hrow (by rw [List.length_map]; exact h1)
    rw [e1, ok_bind]
    exact ⟨fs', rfl, fun m hm => e2 m (nr m hm).1⟩
  · have h2 : d.opens tmpRows = true ∧ es.length * 4 ≤ d.room := by
      rw [not_or] at h1
      exact ⟨by simpa using h1.1, by omega⟩
    have e1 := prepareIndeces_spec malloc0 d fs p (es.map Ent.row) (fun i => p.getD i 0) frow tmpRows hR
      (by simpa using hne) (by rw [List.length_map]; exact hlen) hrow (by rw [List.length_map]; exact ⟨h2.1, h2.2, hkept⟩)
    have h3 : d.opens tmpCols = false := by
      rcases hd with h | h | h
      · rw [h2.1] at h; exact absurd h (by decide)
      · exact h
      · omega
    obtain ⟨fs', e3, e4⟩ := prepareIndeces_no_room malloc0 d (fs.set tmpRows (packed (idx 4) ((es.map Ent.row).map (fun i => p.getD i 0))))
      p (es.map Ent.col) (fun i => p.getD i 0) fcol tmpCols hC
      (by simpa using hne) (by rw [List.length_map]; exact hlen) (by rw [FS.set_other _ _ htmp]; exact hcol) (.inl h3)
    rw [e1, ok_bind]
    simp only
    rw [if_pos trivial, e3, ok_bind]
    refine ⟨fs', rfl, fun m hm => ?_⟩
    rw [e4 m (nr m hm).2, FS.set_other _ _ (nr m hm).1]

/-- Hypotheses of C63_no_room met: room for one index, two are needed. -/
example : ∃ (fs : FS) (es es' : List (Ent Nat)), fs "r" = some (packed (idx 4) (es.map Ent.row)) ∧
    fs "c" = some (packed (idx 4) (es.map Ent.col)) ∧ fs "p" = some (packed (idx 4) [1, 2, 0]) ∧ es ≠ [] ∧
    Permuted [1, 2, 0] es es' ∧ (⟨fun _ => true, 4, 1000⟩ : Disk).room < es.length * 4 :=
  ⟨((FS.set (fun _ => none) "r" (packed (idx 4) [2, 1])).set "c" (packed (idx 4) [0, 1])).set "p" (packed (idx 4) [1, 2, 0]),
    [⟨2, 0, 7⟩, ⟨1, 1, 8⟩], [⟨0, 1, 7⟩, ⟨2, 2, 8⟩], rfl, rfl, rfl, by simp, .cons ⟨rfl, rfl, rfl⟩ (.cons ⟨rfl, rfl, rfl⟩ .nil), by decide⟩

/-- One byte as a value type. -/
def byteCodec : Codec UInt8 := ⟨1, fun b => [b], fun l => l.headD 0⟩

/-- Hypotheses of C56, C62 and C63 met: a matrix of two entries, a permutation of three rows, two blocks. -/
example : byteCodec.Exact (fun _ => True) ∧
    PrepareRun byteCodec (fun _ => "2") ⟨fun _ => true, 1000, 1000⟩
      (((((FS.set (fun _ => none) "r" (packed (idx 4) [2, 1])).set "c" (packed (idx 4) [0, 1])).set "v" (packed byteCodec [7, 8])).set "p"
        (packed (idx 4) [1, 2, 0])).set "s" (packed (idx 4) [2, 1]))
      "r" "c" "v" "p" "s" "out" [1, 2, 0] [2, 1] 1 2 [⟨2, 0, 7⟩, ⟨1, 1, 8⟩] [⟨0, 1, 7⟩, ⟨2, 2, 8⟩] ∧
    ¬ tmpDir.toList <+: "out".toList := by
  refine ⟨⟨by decide, fun _ => rfl, fun _ _ => rfl⟩, ?_, by decide⟩
  exact { files := ⟨rfl, rfl, rfl⟩, perm := rfl, permFits := by decide, sizesFile := rfl,
          sizesFit := ⟨by decide, by decide, by decide, by decide, by decide⟩, nonempty := by simp, bytes := by decide, words := by decide,
          indices := by decide,
          permuted := .cons ⟨rfl, rfl, rfl⟩ (.cons ⟨rfl, rfl, rfl⟩ .nil),
          inside := by decide, slotSize := by decide +kernel, tmp := by decide, name := by decide, diskRows := ⟨rfl, by decide, by decide⟩, diskCols := ⟨rfl, by decide, by decide⟩,
          disk1 := ⟨rfl, by decide, by decide⟩, disk2 := ⟨rfl, by decide, by decide⟩, disk3 := ⟨rfl, by decide, by decide⟩,
          disk4 := ⟨rfl, by decide, by decide⟩ }

/-! ### sort -/

theorem sortTriplets_rowFirst (es : List (Ent T)) : sortTriplets es = es.mergeSort rowFirst := by
  have := ents_sortRow es
  rwa [ents_ent, ents_ent] at this

/-- **C64.** sort with three arguments: the files `.sorted` beside the three inputs hold the same entries
ordered by row and column, entries at the same place in their order; no other file is touched. -/
theorem C64_sort_files (hv : cv.Exact (fun _ => True)) (conv : Bytes → T) (fmt : T → Fixed6)
    (stdSort : Nat → Nat → List (Triplet T) → C (List (Triplet T))) (fuel : Nat) (malloc0 : Bool) (d : Disk) (fs : FS)
    (frow fcol fval : String) (es : List (Ent T)) (hF : Files3 4 cv fs frow fcol fval es) (hsize : es.length * cv.size < 2 ^ 32)
    (hin : ∀ e ∈ es, e.row < 2 ^ 32 ∧ e.col < 2 ^ 32)
    (hn : frow.utf8ByteSize < 118 ∧ fcol.utf8ByteSize < 118 ∧ fval.utf8ByteSize < 118)
    (hne : frow ≠ fcol ∧ frow ≠ fval ∧ fcol ≠ fval)
    (hd1 : d.Works (es.length * 4) (frow ++ ".sorted")) (hd2 : d.Works (es.length * 4) (fcol ++ ".sorted"))
    (hd3 : d.Works (es.length * cv.size) (fval ++ ".sorted")) :
    ∃ fs' es', sortTool cv conv fmt stdSort fuel malloc0 d fs [frow, fcol, fval] = .ok (0, fs') ∧ IsStableSort rowFirst es es' ∧
      Files3 4 cv fs' (frow ++ ".sorted") (fcol ++ ".sorted") (fval ++ ".sorted") es' ∧
      ∀ m, m ∉ [frow ++ ".sorted", fcol ++ ".sorted", fval ++ ".sorted"] → fs' m = fs m := by
  obtain ⟨R, b1, -, -, -, b5⟩ := C39_generic_reader (w := 4) (by decide) hv fs frow fcol fval es hF hsize hin
  have n12 : frow ++ ".sorted" ≠ fcol ++ ".sorted" := fun h => hne.1 (append_right_cancel' h)
  have n13 : frow ++ ".sorted" ≠ fval ++ ".sorted" := fun h => hne.2.1 (append_right_cancel' h)
  have n23 : fcol ++ ".sorted" ≠ fval ++ ".sorted" := fun h => hne.2.2 (append_right_cancel' h)
  have hst := isStableSort_mergeSort totalPre_rowFirst es
  have hrun : sortTool cv conv fmt stdSort fuel malloc0 d fs [frow, fcol, fval] = .ok (0,
      (writeBinCoo3 4 cv d fs (frow ++ ".sorted") (fcol ++ ".sorted") (fval ++ ".sorted") (es.mergeSort rowFirst)).2) := by
    unfold sortTool
    simp only
    rw [b1, ok_bind]
    simp only
    rw [if_neg (by decide), b5, ok_bind, outName_ok hn.1 (by decide), ok_bind, outName_ok hn.2.1 (by decide), ok_bind,
      outName_ok hn.2.2 (by decide), ok_bind, sortTriplets_rowFirst]
  have e1 := fwriteEach_nil_take (d := d) idx4_exact ((es.mergeSort rowFirst).map (fun e => (NZ.toEnt e).row))
  have e2 := fwriteEach_nil_take (d := d) idx4_exact ((es.mergeSort rowFirst).map (fun e => (NZ.toEnt e).col))
  have e3 := fwriteEach_nil_take (d := d) hv ((es.mergeSort rowFirst).map (fun e => (NZ.toEnt e).val))
  have hl : (es.mergeSort rowFirst).length = es.length := List.length_mergeSort _
  unfold writeBinCoo3 at hrun
  simp only at hrun
  rw [e1, e2, e3, if_pos hd1.opens, if_pos hd2.opens, if_pos hd3.opens, if_pos ⟨hd3.opens, hd1.opens, hd2.opens⟩] at hrun
  simp only [Disk.close, List.take_take] at hrun
  rw [List.take_of_length_le (by rw [packed_length idx4_exact, List.length_map, hl]; exact Nat.le_min.2 ⟨hd1.kept, hd1.room⟩),
    List.take_of_length_le (by rw [packed_length idx4_exact, List.length_map, hl]; exact Nat.le_min.2 ⟨hd2.kept, hd2.room⟩),
    List.take_of_length_le (by rw [packed_length hv, List.length_map, hl]; exact Nat.le_min.2 ⟨hd3.kept, hd3.room⟩)] at hrun
  refine ⟨_, es.mergeSort rowFirst, hrun, hst, ⟨?_, ?_, ?_⟩, ?_⟩
  · rw [FS.set_other _ _ n13, FS.set_other _ _ n12, FS.set_same]; rfl
  · rw [FS.set_other _ _ n23, FS.set_same]; rfl
  · rw [FS.set_same]; rfl
  · intro m hm
    simp only [List.mem_cons, List.not_mem_nil, or_false, not_or] at hm
    rw [FS.set_other _ _ hm.2.2, FS.set_other _ _ hm.2.1, FS.set_other _ _ hm.1, FS.set_other _ _ hm.2.1, FS.set_other _ _ hm.1,
      FS.set_other _ _ hm.2.2]

/-- **C64.** sort with one argument, a general MatrixMarket file: `f.sorted` is a MatrixMarket file of the
same dimensions with the same entries ordered by row and column. -/
theorem C64_sort_mtx (cv : Codec T) (conv : Bytes → T) (fmt : T → Fixed6)
    (stdSort : Nat → Nat → List (Triplet T) → C (List (Triplet T))) (fuel : Nat) (hfuel : 0 < fuel) (malloc0 : Bool) (d : Disk) (fs : FS)
    (name : String) {F : MmFile} (hF : F.Ok) (hf : F.field = chars "real" ∨ F.field = chars "integer")
    (hs : F.symmetry = chars "general") (hr : F.rows < 2 ^ 31) (hc : F.columns < 2 ^ 31) (hn : F.nnz < 2 ^ 31)
    (hfs : fs name = some F.text) (hname : name.utf8ByteSize < 118) 
    (hd : d.Works (mmText fmt F.rows F.columns (F.lines.map (MmLine.ent conv))).length (name ++ ".sorted")) :
    ∃ fs' es', sortTool cv conv fmt stdSort fuel malloc0 d fs [name] = .ok (0, fs') ∧
      IsStableSort rowFirst (F.lines.map (MmLine.ent conv)) es' ∧
      fs' (name ++ ".sorted") = some (mmText fmt F.rows F.columns es') ∧ ∀ m, m ≠ name ++ ".sorted" → fs' m = fs m := by
  obtain ⟨A, a1, a2, a3, a4⟩ := C43_general (2 ^ 32) (by decide) conv fuel hfuel fs name hF hf hs hr hc hn hfs
  refine ⟨_, (F.lines.map (MmLine.ent conv)).mergeSort rowFirst, ?_, isStableSort_mergeSort totalPre_rowFirst _, FS.set_same fs _ _,
    fun m hm => FS.set_other _ _ hm⟩
  unfold sortTool
  simp only
  rw [a1, ok_bind]
  simp only
  rw [if_neg (by decide), a2, a3]
  simp only
  rw [a4, ok_bind, outName_ok hname (by decide), ok_bind, sortTriplets_rowFirst,
    writeMmCoo_works fmt d fs _ _ _ _ (by
      rw [← mmText_length_perm fmt F.rows F.columns (List.mergeSort_perm (F.lines.map (MmLine.ent conv)) rowFirst).symm]; exact hd)]

/-- Sizes given for offsets: the array is one too short. -/
theorem locate_short {M : Nat} {ts : List (Triplet T)} {sizes : List Nat} (hM : ts.length < M) (hb : sizes ≠ [])
    (hbM : sizes.length + 1 < M) : locateBlockrows M ts [] sizes sizes.length = .error .oob := by
  have hb : 0 < sizes.length := List.length_pos_iff.2 hb
  unfold locateBlockrows
  rw [List.append_nil]
  simp only
  rw [addM_eq hbM, Buf.put_ok (by simp), ok_bind]
  have key : ∀ m (i : Nat) (brp : Buf Nat), m ≤ sizes.length → 0 < m → i ≤ ts.length → brp.len = sizes.length + 1 →
      forLoop (sizes.length - m) sizes.length (i, brp) (fun br s => do
        let i ← whileLoop (fun i => do
            let t ← rd ts i
            let o ← rd sizes (br + 1)
            .ok (decide (t.row < o))) (fun i => .ok (addM M i 1)) (ts.length + 1) s.1
        let brp ← s.2.put (br + 1) i
        .ok (i, brp)) = .error .oob := by
    intro m
    induction m with
    | zero => intro i brp _ h; omega
    | succ m ih =>
      intro i brp hm _ hi hl
      rw [forLoop_step (by omega)]
      by_cases h0 : m = 0
      · subst h0
        have e : sizes.length - (0 + 1) + 1 = sizes.length := by omega
        rw [e]
        have : rd sizes sizes.length = .error .oob := by unfold rd; rw [List.getElem?_eq_none (Nat.le_refl _)]
        unfold whileLoop
        simp only [this]
        by_cases h : i < ts.length
        · rw [rd_ok h]; rfl
        · have : rd ts i = .error .oob := by unfold rd; rw [List.getElem?_eq_none (by omega)]
          rw [this]; rfl
      · rcases walk_bound hM (rd_ok (show sizes.length - (m + 1) + 1 < sizes.length by omega)) (ts.length + 1) i hi (by omega) with ⟨j, hj, h⟩ | h
        · rw [h, ok_bind, Buf.put_ok (by show _ < brp.len; omega), ok_bind, ok_bind]
          have := ih j ⟨brp.len, fun k => if k = sizes.length - (m + 1) + 1 then some j else brp.dat k⟩ (by omega) (by omega) hj hl
          rw [show sizes.length - (m + 1) + 1 = sizes.length - m by omega] at *
          exact this
        · rw [h]; rfl
  have := key sizes.length 0 ⟨sizes.length + 1, fun k => if k = 0 then some 0 else (Buf.uninit (sizes.length + 1) : Buf Nat).dat k⟩
    (Nat.le_refl _) hb (Nat.zero_le _) rfl
  rw [Nat.sub_self] at this
  simp only [Buf.uninit_len]
  rw [this]
  rfl

/-- **C64.** sort with block sizes never works: with four arguments, whatever the matrix and whatever the
(non-empty) list of block sizes, it reads outside an array; with two it reads beyond `argv`. -/
theorem C64_sort_blocks_oob (hv : cv.Exact (fun _ => True)) (conv : Bytes → T) (fmt : T → Fixed6)
    (stdSort : Nat → Nat → List (Triplet T) → C (List (Triplet T))) (fuel : Nat) (malloc0 : Bool) (d : Disk) (fs : FS)
    (frow fcol fval fsizes : String) (es : List (Ent T)) (sdata : Bytes) (hF : Files3 4 cv fs frow fcol fval es)
    (hsize : es.length * cv.size < 2 ^ 32) (hin : ∀ e ∈ es, e.row < 2 ^ 32 ∧ e.col < 2 ^ 32)
    (hs : fs fsizes = some sdata) (hne : items (idx 4) sdata ≠ []) (hlen : (items (idx 4) sdata).length + 1 < 2 ^ 32) :
    sortTool cv conv fmt stdSort fuel malloc0 d fs [frow, fcol, fval, fsizes] = .error .oob ∧
      ∀ a b, sortTool cv conv fmt stdSort fuel malloc0 d fs [a, b] = .error .oob := by
  obtain ⟨R, b1, -, -, -, b5⟩ := C39_generic_reader (w := 4) (by decide) hv fs frow fcol fval es hF hsize hin
  refine ⟨?_, fun _ _ => rfl⟩
  unfold sortTool
  simp only
  rw [readBinArray_items (by decide) malloc0 fs fsizes sdata hs (.inl hne), ok_bind]
  simp only
  rw [b1, ok_bind]
  simp only
  rw [if_neg (by decide), b5, ok_bind, toList_ofList _ _ rfl (fun _ => rfl), ok_bind, Nat.mod_eq_of_lt (by omega)]
  have hp : (pssSort ltRow es).Perm es := List.mergeSort_perm _ _
  unfold sortTripletsBlocks
  simp only
  rw [locate_short (by rw [hp.length_eq]; exact nnz_lt hv hsize) hne hlen]
  rfl

/-- Hypotheses of C64 met: two entries out of order, and a list of one block size. -/
example : Files3 4 byteCodec (((FS.set (fun _ => none) "r" (packed (idx 4) [2, 1])).set "c" (packed (idx 4) [0, 1])).set "v"
    (packed byteCodec [7, 8])) "r" "c" "v" [⟨2, 0, 7⟩, ⟨1, 1, 8⟩] ∧ items (idx 4) ([3, 0, 0, 0] : Bytes) = [3] := ⟨⟨rfl, rfl, rfl⟩, by decide⟩

end Gsb
