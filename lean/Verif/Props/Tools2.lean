import Verif.Proof.Tools2
import Verif.Props.Tools
import Verif.Props.IoMm2
import Verif.Props.IoCgbr
/-
C56, C62–C64: the tools convert, convert_blocked, expanded, prepare and sort.
-/
namespace Gsb
variable {T : Type} {cv : Codec T}

theorem append_left_cancel' {a b s : String} (h : s ++ a = s ++ b) : a = b := by
  have := congrArg String.toList h
  simp only [String.toList_append] at this
  exact String.toList_inj.1 (List.append_cancel_left this)

theorem ents_ent (l : List (Ent T)) : ents l = l := List.map_id l

theorem ents_asElements (l : List (Ent T)) : ents (asElements l) = l := by
  unfold ents asElements
  rw [List.map_map]
  exact List.map_id l

theorem nnz_lt (hv : cv.Exact (fun _ => True)) {n M : Nat} (h : n * cv.size < M) : n < M := by
  have := Nat.mul_le_mul_left n hv.pos
  omega

/-- The file `write_bin_COO` leaves on a disk that works. -/
theorem writeBinCoo_works {ε : Type} [NZ ε T] (hv : cv.Exact (fun _ => True)) (d : Disk) (fs : FS) (name : String)
    (rows columns : Nat) (es : List ε) (hd : d.Works (12 + es.length * (8 + cv.size)) name) :
    writeBinCoo 4 cv d fs name rows columns es = (0, fs.set name (binFile 4 cv rows columns (ents es))) := by
  rw [writeBinCoo_eq (by decide) hv d fs name rows columns es hd.opens, List.take_of_length_le]
  rw [binFile_length (by decide) hv, show (ents es).length = es.length by simp [ents]]
  have := hd.room
  have := hd.kept
  rw [Nat.mul_add] at *
  omega

/-! ### convert -/

/-- **C56.** convert … `bin`: the output holds the entries of the three files, ordered by column and row
(entries at the same place in their order), and no other file is touched — but the number of rows and columns in it are
`gr` and `gc`, whatever two variables that are never assigned happen to hold, whatever the input. -/
theorem C56_convert_bin (hv : cv.Exact (fun _ => True)) (fmt : T → Fixed6) (d : Disk) (fs : FS) (gr gc : Nat)
    (frow fcol fval out : String) (es : List (Ent T)) (hF : Files3 4 cv fs frow fcol fval es)
    (hsize : es.length * cv.size < 2 ^ 32) (hin : ∀ e ∈ es, e.row < 2 ^ 32 ∧ e.col < 2 ^ 32)
    (hout : out.utf8ByteSize < 118) (hgr : gr < 2 ^ 32) (hgc : gc < 2 ^ 32)
    (hd : d.Works (12 + es.length * (8 + cv.size)) (out ++ ".bin")) :
    ∃ fs' es' A, convertTool cv fmt d fs gr gc [frow, fcol, fval, out, "bin"] = .ok (0, fs') ∧
      IsStableSort colFirst es es' ∧ fs' (out ++ ".bin") = some (binFile 4 cv gr gc es') ∧
      (∀ m, m ≠ out ++ ".bin" → fs' m = fs m) ∧
      readBinCoo 4 cv fs' (out ++ ".bin") = .ok (0, A) ∧ A.rows = some gr ∧ A.columns = some gc ∧ A.ents = .ok es' := by
  obtain ⟨B, b1, b2, b3, -, b5⟩ := C39_generic_reader (w := 4) (by decide) hv fs frow fcol fval es hF hsize hin
  have hs : sortTriplets es false = es.mergeSort colFirst := by
    have := ents_sortCol es
    rwa [ents_ent, ents_ent] at this
  have hst := isStableSort_mergeSort totalPre_colFirst es
  refine ⟨_, es.mergeSort colFirst, _, ?_, hst, FS.set_same fs _ _, fun m hm => FS.set_other _ _ hm,
    readBinCoo_file (w := 4) (by decide) hv _ _ gr gc _ hgr hgc (by rw [List.length_mergeSort]; exact nnz_lt hv hsize)
      (fun e he => hin e (hst.perm.mem_iff.1 he)) [] (by rw [FS.set_same, List.append_nil]), rfl, rfl, mapM_ents _ _ _⟩
  unfold convertTool
  simp only [show convertMode "bin" = some (true, false) by decide]
  rw [b1, ok_bind]
  simp only
  rw [if_neg (by decide), b5, ok_bind, b2, b3]
  simp only [convertWrite, Option.getD_none]
  rw [if_neg (by decide), ok_bind, if_pos trivial, outName_ok hout (by decide), ok_bind, ok_bind, hs,
    writeBinCoo_works hv _ _ _ _ _ _ (by rw [List.length_mergeSort]; exact hd), ents_ent]

/-- The length of the text does not depend on the order of the entries. -/
theorem mmText_length_perm (fmt : T → Fixed6) (rows columns : Nat) {es es' : List (Ent T)} (h : es.Perm es') :
    (mmText fmt rows columns es).length = (mmText fmt rows columns es').length := by
  have hl := h.length_eq
  have : (es.flatMap (fun e => mmEntryLine fmt (NZ.toEnt e))).length = (es'.flatMap (fun e => mmEntryLine fmt (NZ.toEnt e))).length := by
    rw [List.length_flatMap, List.length_flatMap]
    exact (h.map _).sum_eq
  unfold mmText
  simp only [List.length_append, hl, this]

theorem writeMmCoo_works (fmt : T → Fixed6) (d : Disk) (fs : FS) (name : String) (rows columns : Nat) (es : List (Ent T))
    (h : d.Works (mmText fmt rows columns es).length name) :
    (writeMmCoo fmt d fs name rows columns es).2 = fs.set name (mmText fmt rows columns es) := by
  unfold writeMmCoo
  rw [if_pos h.opens, Disk.close, List.take_take, List.take_of_length_le (by have := h.room; have := h.kept; omega)]

/-- **C56.** convert … `mtx`: the same entries in the MatrixMarket file, with the same arbitrary
dimensions in its size line. -/
theorem C56_convert_mtx (hv : cv.Exact (fun _ => True)) (fmt : T → Fixed6) (d : Disk) (fs : FS) (gr gc : Nat)
    (frow fcol fval out : String) (es : List (Ent T)) (hF : Files3 4 cv fs frow fcol fval es)
    (hsize : es.length * cv.size < 2 ^ 32) (hin : ∀ e ∈ es, e.row < 2 ^ 32 ∧ e.col < 2 ^ 32)
    (hout : out.utf8ByteSize < 118) (hd : d.Works (mmText fmt gr gc es).length (out ++ ".mtx")) :
    ∃ fs' es', convertTool cv fmt d fs gr gc [frow, fcol, fval, out, "mtx"] = .ok (0, fs') ∧
      IsStableSort colFirst es es' ∧ fs' (out ++ ".mtx") = some (mmText fmt gr gc es') ∧
      (∀ m, m ≠ out ++ ".mtx" → fs' m = fs m) := by
  obtain ⟨B, b1, b2, b3, -, b5⟩ := C39_generic_reader (w := 4) (by decide) hv fs frow fcol fval es hF hsize hin
  have hs : sortTriplets es false = es.mergeSort colFirst := by
    have := ents_sortCol es
    rwa [ents_ent, ents_ent] at this
  refine ⟨_, es.mergeSort colFirst, ?_, isStableSort_mergeSort totalPre_colFirst es, FS.set_same fs _ _,
    fun m hm => FS.set_other _ _ hm⟩
  unfold convertTool
  simp only [show convertMode "mtx" = some (false, true) by decide]
  rw [b1, ok_bind]
  simp only
  rw [if_neg (by decide), b5, ok_bind, b2, b3]
  simp only [convertWrite, Option.getD_none]
  rw [if_pos trivial, outName_ok hout (by decide), ok_bind, ok_bind, if_neg (by decide), ok_bind, hs,
    writeMmCoo_works fmt d fs _ gr gc _ (by rw [← mmText_length_perm fmt gr gc (List.mergeSort_perm es colFirst).symm]; exact hd)]

/-- **C56.** convert … `all`: both files. -/
theorem C56_convert_all (hv : cv.Exact (fun _ => True)) (fmt : T → Fixed6) (d : Disk) (fs : FS) (gr gc : Nat)
    (frow fcol fval out : String) (es : List (Ent T)) (hF : Files3 4 cv fs frow fcol fval es)
    (hsize : es.length * cv.size < 2 ^ 32) (hin : ∀ e ∈ es, e.row < 2 ^ 32 ∧ e.col < 2 ^ 32)
    (hout : out.utf8ByteSize < 118) (hd : d.Works (mmText fmt gr gc es).length (out ++ ".mtx"))
    (hd' : d.Works (12 + es.length * (8 + cv.size)) (out ++ ".bin")) :
    ∃ fs' es', convertTool cv fmt d fs gr gc [frow, fcol, fval, out, "all"] = .ok (0, fs') ∧
      IsStableSort colFirst es es' ∧ fs' (out ++ ".mtx") = some (mmText fmt gr gc es') ∧
      fs' (out ++ ".bin") = some (binFile 4 cv gr gc es') ∧
      (∀ m, m ≠ out ++ ".mtx" → m ≠ out ++ ".bin" → fs' m = fs m) := by
  obtain ⟨B, b1, b2, b3, -, b5⟩ := C39_generic_reader (w := 4) (by decide) hv fs frow fcol fval es hF hsize hin
  have hs : sortTriplets es false = es.mergeSort colFirst := by
    have := ents_sortCol es
    rwa [ents_ent, ents_ent] at this
  have hne : out ++ ".mtx" ≠ out ++ ".bin" := fun h => absurd (append_left_cancel' h) (by decide)
  refine ⟨(fs.set (out ++ ".mtx") (mmText fmt gr gc (es.mergeSort colFirst))).set (out ++ ".bin") (binFile 4 cv gr gc (es.mergeSort colFirst)),
    es.mergeSort colFirst, ?_, isStableSort_mergeSort totalPre_colFirst es, ?_, FS.set_same _ _ _, ?_⟩
  · unfold convertTool
    simp only [show convertMode "all" = some (true, true) by decide]
    rw [b1, ok_bind]
    simp only
    rw [if_neg (by decide), b5, ok_bind, b2, b3]
    simp only [convertWrite, Option.getD_none]
    rw [if_pos trivial, outName_ok hout (by decide), ok_bind, ok_bind, if_pos trivial, outName_ok hout (by decide), ok_bind, ok_bind, hs,
      writeMmCoo_works fmt d fs _ gr gc _ (by rw [← mmText_length_perm fmt gr gc (List.mergeSort_perm es colFirst).symm]; exact hd),
      writeBinCoo_works hv _ _ _ _ _ _ (by rw [List.length_mergeSort]; exact hd'), ents_ent]
  · rw [FS.set_other _ _ hne, FS.set_same]
  · intro m h1 h2
    rw [FS.set_other _ _ h2, FS.set_other _ _ h1]

/-- C56, refusals: another number of arguments, another word than `bin`, `mtx`, `all`, or a missing file
ends with status 1 and no file touched. -/
theorem C56_refuses (fmt : T → Fixed6) (d : Disk) (fs : FS) (gr gc : Nat) (args : List String)
    (h : args.length ≠ 5 ∨ ∃ frow fcol fval out mode, args = [frow, fcol, fval, out, mode] ∧
      (mode ∉ ["bin", "mtx", "all"] ∨ fs fval = none ∨ (0 < cv.size ∧ fs frow = none))) :
    convertTool cv fmt d fs gr gc args = .ok (1, fs) := by
  rcases h with h | ⟨frow, fcol, fval, out, mode, rfl, h⟩
  · unfold convertTool
    split
    · simp at h
    · rfl
  · unfold convertTool
    simp only
    rcases hm : convertMode mode with _ | m
    · rfl
    · simp only
      rcases h with h | h | ⟨hc, h⟩
      · simp only [List.mem_cons, List.not_mem_nil, not_or, or_false] at h
        unfold convertMode at hm
        rw [if_neg h.1, if_neg h.2.1, if_neg h.2.2] at hm
        exact absurd hm (by simp)
      · have : readBinCoo3Gen 4 cv fs frow fcol fval = .ok none := by
          unfold readBinCoo3Gen getFileSize; rw [h]; rfl
        rw [this, ok_bind]
      · cases hv : fs fval with
        | none =>
          have : readBinCoo3Gen 4 cv fs frow fcol fval = .ok none := by
            unfold readBinCoo3Gen getFileSize; rw [hv]; rfl
          rw [this, ok_bind]
        | some data =>
          have : ∃ A, readBinCoo3Gen 4 cv fs frow fcol fval = .ok (some ⟨-1, A, []⟩) := by
            unfold readBinCoo3Gen getFileSize
            rw [hv]
            simp only [Option.map_some]
            rw [cdiv_ok hc, ok_bind, h]
            exact ⟨_, rfl⟩
          obtain ⟨A, hA⟩ := this
          rw [hA, ok_bind]
          simp only
          rw [if_pos (by decide)]

/-- Hypotheses met: the three files of the example after C39. -/
example : Files3 4 (idx 4) (((FS.set (fun _ => none) "r" (packed (idx 4) [5, 0])).set "c" (packed (idx 4) [1, 2])).set "v"
    (packed (idx 4) [7, 8])) "r" "c" "v" [(⟨5, 1, 7⟩ : Ent Nat), ⟨0, 2, 8⟩] ∧
    IsStableSort colFirst [(⟨0, 2, 8⟩ : Ent Nat), ⟨5, 1, 7⟩] [⟨5, 1, 7⟩, ⟨0, 2, 8⟩] := by
  refine ⟨⟨rfl, rfl, rfl⟩, ?_⟩
  have h := isStableSort_mergeSort totalPre_colFirst [(⟨0, 2, 8⟩ : Ent Nat), ⟨5, 1, 7⟩]
  simpa [List.mergeSort, colFirst] using h

/-! ### convert_blocked -/

theorem readSizes_items (malloc0 : Bool) (fs : FS) (name : String) (data : Bytes) (hf : fs name = some data)
    (h0 : items (idx 4) data ≠ [] ∨ malloc0 = true) (hlen : (items (idx 4) data).length < 2 ^ 32) :
    readSizes malloc0 fs name = .ok (some (items (idx 4) data)) := by
  unfold readSizes
  rw [readBinArray_items (by decide) malloc0 fs name data hf h0, ok_bind]
  simp only
  rw [if_neg (by decide), toList_ofList _ _ rfl (fun _ => rfl), ok_bind, Nat.mod_eq_of_lt hlen, List.take_length]

/-- A blocked file whose header does not have the dimensions of the partition is refused by an `assert`. -/
theorem readBlockedCommon_refuses {fs : FS} {name : String} {off : List Nat} {k n : Nat} (P : Partition off k n)
    (gr gc nb : Nat) (l : List (Nat × Ent T)) (hgr : gr < 2 ^ 32) (hgc : gc < 2 ^ 32) (hk : k < 2 ^ 32) (hl : l.length < 2 ^ 32)
    (hnb : nb < 2 ^ 32) (hf : fs name = some (blockFile 4 cv gr gc k k nb l)) (hbad : gr ≠ n ∨ gc ≠ n) :
    readBlockedCommon 4 fs name off k off k = .error .assertion := by
  unfold readBlockedCommon
  rw [hf]
  simp only
  have h := readWords_ok (w := 4) (by decide) [gr, gc, l.length, k, k, nb]
    (by intro a ha; simp only [List.mem_cons, List.not_mem_nil, or_false] at ha; rcases ha with h | h | h | h | h | h <;> subst h <;> assumption)
    ⟨blockFile 4 cv gr gc k k nb l, 0⟩ (l.flatMap (blockRecord 4 cv)) rfl
  simp only [List.length_cons, List.length_nil, List.map_cons, List.map_nil] at h
  rw [h]
  simp only
  have hr : rd off k = .ok n := by unfold rd; rw [P.last]
  rw [cassert_ok (by simp), ok_bind, ok_bind, hr, ok_bind]
  by_cases h1 : gr = n
  · rw [cassert_ok (by simp [h1]), ok_bind, ok_bind]
    have h2 : gc ≠ n := by tauto
    have : cassert (n == gc) = .error .assertion := by
      unfold cassert; rw [if_neg (by simp; omega)]
    rw [this]; rfl
  · have : cassert (n == gr) = .error .assertion := by
      unfold cassert; rw [if_neg (by simp; omega)]
    rw [this]; rfl

/-- What the three steps after reading do: block ids, block sort, count. -/
theorem blocked_steps (sizes : List Nat) (es : List (Ent T)) (hsum : sizes.sum < 2 ^ 32) (hk : sizes.length < 2 ^ 32)
    (hgrid : sizes.length * sizes.length ≤ 2 ^ 32) (hne : es ≠ []) (hlen : es.length < 2 ^ 32)
    (hin : InRange es sizes.sum sizes.sum) :
    ∃ es1, calculateBlockId (2 ^ 32) (asElements es) (sizeToOffset (2 ^ 32) sizes) sizes.length (sizeToOffset (2 ^ 32) sizes) sizes.length =
        .ok es1 ∧ ents es1 = es ∧ es1 = (asElements es).map (withKey (blockKey (sizeToOffset (2 ^ 32) sizes) sizes.length (sizeToOffset (2 ^ 32) sizes) sizes.length)) ∧
      BlockOrder (sizeToOffset (2 ^ 32) sizes) sizes.length es ((sortElementsBlocks es1).map recOf) ∧
      countBlocks (2 ^ 32) (sortElementsBlocks es1) = .ok ((((sortElementsBlocks es1).map recOf).map Prod.fst).dedup.length) := by
  have P := C22_partition (2 ^ 32) sizes hsum
  have hin' : InRange (ents (asElements es)) sizes.sum sizes.sum := by rw [ents_asElements]; exact hin
  obtain ⟨es1, c1, c2, -, -, -, c6⟩ := C23_blocks (2 ^ 32) sizes.sum sizes.sum (asElements es) _ _ _ _ P P hk hk hgrid hin'
  have he := calculateBlockId_spec P P hk hk hgrid hin'
  rw [c1] at he
  have he := Except.ok.inj he
  refine ⟨es1, c1, by rw [c2, ents_asElements], he, ?_, ?_⟩
  · have := blockOrder_prepared P (asElements es) hin'
    rw [ents_asElements] at this
    rw [he]
    exact this
  · rw [c6 (by simpa [asElements] using hne) (by simpa [asElements] using hlen)]
    have hp := ((sortBlocks_perm es1).map Element.block).dedup.length_eq
    rw [← hp, List.map_map]
    rfl

/-- **C56.** convert_blocked: the output holds the entries with their block numbers in block order and
the right number of blocks; the number of rows and columns in its header are again arbitrary, and
unless both happen to be right every `read_bin_blocked` refuses the file by a failing `assert`. -/
theorem C56_convert_blocked [Add T] [Mul T] [Zero T] (hv : cv.Exact (fun _ => True)) (malloc0 : Bool) (d : Disk) (fs : FS) (gr gc : Nat)
    (frow fcol fval fsizes out : String) (es : List (Ent T)) (sdata : Bytes)
    (hF : Files3 4 cv fs frow fcol fval es) (hs : fs fsizes = some sdata) (hne : es ≠ [])
    (hsize : es.length * cv.size < 2 ^ 32) (hsum : (items (idx 4) sdata).sum < 2 ^ 32)
    (hlen : (items (idx 4) sdata).length < 2 ^ 32)
    (hgrid : (items (idx 4) sdata).length * (items (idx 4) sdata).length ≤ 2 ^ 32)
    (hin : InRange es (items (idx 4) sdata).sum (items (idx 4) sdata).sum)
    (hgr : gr < 2 ^ 32) (hgc : gc < 2 ^ 32)
    (hd : d.Works (24 + es.length * (12 + cv.size)) out) :
    ∃ fs' l, convertBlockedTool cv malloc0 d fs gr gc [frow, fcol, fval, fsizes, out] = .ok (0, fs') ∧
      BlockOrder (sizeToOffset (2 ^ 32) (items (idx 4) sdata)) (items (idx 4) sdata).length es l ∧
      fs' out = some (blockFile 4 cv gr gc (items (idx 4) sdata).length (items (idx 4) sdata).length (l.map Prod.fst).dedup.length l) ∧
      (∀ m, m ≠ out → fs' m = fs m) ∧
      (gr ≠ (items (idx 4) sdata).sum ∨ gc ≠ (items (idx 4) sdata).sum →
        ∀ off k, off = sizeToOffset (2 ^ 32) (items (idx 4) sdata) → k = (items (idx 4) sdata).length →
          readBlockedCsbr 4 cv fs' out off k off k = .error .assertion ∧
          readBlockedCsbr2 4 cv fs' out off k off k = .error .assertion ∧
          ∀ S workers choose balanced, readBlockedCgbr 4 S workers cv choose balanced fs' out off k off k = .error .assertion) := by
  obtain ⟨e0, he0⟩ := List.exists_mem_of_ne_nil es hne
  have hsz : items (idx 4) sdata ≠ [] := fun h => by
    have := hin e0 he0
    rw [h] at this
    simp at this
  obtain ⟨B, b1, b2, b3, -, b5⟩ := C39_generic_reader (w := 4) (by decide) hv fs frow fcol fval es hF hsize
    (fun e he => by have := hin e he; omega)
  have hnnz := nnz_lt hv hsize
  obtain ⟨es1, c1, c2, -, c4, c5⟩ := blocked_steps (items (idx 4) sdata) es hsum hlen hgrid hne hnnz hin
  have hl1 : (sortElementsBlocks es1).length = es.length := by
    rw [(sortBlocks_perm es1).length_eq, ← c2]; simp [ents]
  have hrun : convertBlockedTool cv malloc0 d fs gr gc [frow, fcol, fval, fsizes, out] = .ok (0, fs.set out
      (blockFile 4 cv gr gc (items (idx 4) sdata).length (items (idx 4) sdata).length
        (((sortElementsBlocks es1).map recOf).map Prod.fst).dedup.length ((sortElementsBlocks es1).map recOf))) := by
    unfold convertBlockedTool
    simp only
    rw [readSizes_items malloc0 fs fsizes sdata hs (.inl hsz) hlen, ok_bind]
    simp only
    rw [b1, ok_bind]
    simp only
    rw [if_neg (by decide), b5, ok_bind, c1, ok_bind, c5, ok_bind, b2, b3]
    simp only [Option.getD_none]
    rw [writeBinBlocked_eq (by decide) hv _ _ _ _ _ _ _ _ _ hd.opens]
    rw [List.take_of_length_le (by
      rw [blockFile_length (by decide) hv, hl1]
      exact Nat.le_min.2 ⟨hd.kept, hd.room⟩)]
  refine ⟨_, _, hrun, c4, FS.set_same _ _ _, fun m hm => FS.set_other _ _ hm, ?_⟩
  rintro hbad off k rfl rfl
  have P := C22_partition (2 ^ 32) (items (idx 4) sdata) hsum
  have href := readBlockedCommon_refuses (cv := cv) P gr gc (((sortElementsBlocks es1).map recOf).map Prod.fst).dedup.length
    ((sortElementsBlocks es1).map recOf) hgr hgc hlen (by rw [List.length_map, hl1]; exact hnnz)
    (by
      have := (List.dedup_sublist (((sortElementsBlocks es1).map recOf).map Prod.fst)).length_le
      rw [List.length_map, List.length_map, hl1] at this
      omega) (FS.set_same fs out _) hbad
  refine ⟨?_, ?_, fun S workers choose balanced => ?_⟩
  · unfold readBlockedCsbr; rw [href]; rfl
  · unfold readBlockedCsbr2; rw [href]; rfl
  · unfold readBlockedCgbr; rw [href]; rfl

end Gsb
