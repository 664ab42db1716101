import Verif.Props.IoBin
import Verif.Proof.Csr
/-
C39 (three-file readers) and C42 (read_bin_CSR).
-/
namespace Gsb
variable {ε T : Type} [NZ ε T] {w : Nat} {cv : Codec T}

theorem maxLoop_ofList (l : List Nat) : maxLoop l.length (Buf.ofList l) =
    .ok (l.foldl (fun m a => if a > m then a else m) 0) := by
  unfold maxLoop
  exact forLoop_list l id (fun m a => if a > m then a else m) 0 (fun j t h => by
    rw [Buf.get_ok (a := l[j]) h (by simp [h])]; rfl)

theorem foldl_max_spec (l : List Nat) (m : Nat) :
    (m ≤ l.foldl (fun m a => if a > m then a else m) m ∧ ∀ a ∈ l, a ≤ l.foldl (fun m a => if a > m then a else m) m) ∧
    (l.foldl (fun m a => if a > m then a else m) m = m ∨ l.foldl (fun m a => if a > m then a else m) m ∈ l) := by
  induction l generalizing m with
  | nil => simp
  | cons b l ih =>
    have h := ih (if b > m then b else m)
    rw [List.foldl_cons]
    generalize l.foldl (fun m a => if a > m then a else m) (if b > m then b else m) = r at h ⊢
    obtain ⟨⟨h1, h2⟩, h3⟩ := h
    refine ⟨⟨by split at h1 <;> omega, fun a ha => ?_⟩, ?_⟩
    · rcases List.mem_cons.1 ha with rfl | ha
      · split at h1 <;> omega
      · exact h2 a ha
    · rcases h3 with h3 | h3
      · by_cases hb : b > m
        · rw [if_pos hb] at h3; exact .inr (by rw [h3]; exact List.mem_cons_self)
        · rw [if_neg hb] at h3; exact .inl h3
      · exact .inr (List.mem_cons_of_mem _ h3)

/-- The three files of a matrix: row indices, column indices, values. -/
structure Files3 (w : Nat) (cv : Codec T) (fs : FS) (frow fcol fval : String) (es : List (Ent T)) : Prop where
  row : fs frow = some (packed (idx w) (es.map Ent.row))
  col : fs fcol = some (packed (idx w) (es.map Ent.col))
  val : fs fval = some (packed cv (es.map Ent.val))

/-- **C39.** The `Coo` overload returns the entries in order and, in each dimension, the least number
above every index (1 for no entries).  It closes the column stream twice and the value stream never. -/
theorem C39_coo_reader (hw : 0 < w) (hv : cv.Exact (fun _ => True)) (fs : FS) (frow fcol fval : String)
    (es : List (Ent T)) (hF : Files3 w cv fs frow fcol fval es)
    (hsize : es.length * cv.size < 256 ^ w) (hin : ∀ e ∈ es, e.row + 1 < 256 ^ w ∧ e.col + 1 < 256 ^ w) :
    ∃ A R K, readBinCoo3Coo w cv fs frow fcol fval = .ok (some ⟨0, A, [.row, .col, .col]⟩) ∧
      A.rows = some R ∧ A.columns = some K ∧ A.nnz = some es.length ∧ A.ents = .ok es ∧
      (∀ e ∈ es, e.row < R ∧ e.col < K) ∧
      (es = [] → R = 1 ∧ K = 1) ∧
      (es ≠ [] → (∃ e ∈ es, e.row + 1 = R) ∧ ∃ e ∈ es, e.col + 1 = K) := by
  have hi := idx_exact hw
  have h256 : 256 ≤ 256 ^ w := by
    have := Nat.pow_le_pow_right (n := 256) (by omega) (show 1 ≤ w from hw); simpa using this
  have lr : (es.map Ent.row).length = es.length := by simp
  have lc : (es.map Ent.col).length = es.length := by simp
  have lv : (es.map Ent.val).length = es.length := by simp
  have mr := foldl_max_spec (es.map Ent.row) 0
  have mc := foldl_max_spec (es.map Ent.col) 0
  have er := maxLoop_ofList (es.map Ent.row)
  have ec := maxLoop_ofList (es.map Ent.col)
  generalize (es.map Ent.row).foldl (fun m a => if a > m then a else m) 0 = R at mr er
  generalize (es.map Ent.col).foldl (fun m a => if a > m then a else m) 0 = K at mc ec
  have hR : R + 1 < 256 ^ w := by
    rcases mr.2 with h | h
    · omega
    · obtain ⟨e, he, rfl⟩ := List.mem_map.1 h; exact (hin e he).1
  have hK : K + 1 < 256 ^ w := by
    rcases mc.2 with h | h
    · omega
    · obtain ⟨e, he, rfl⟩ := List.mem_map.1 h; exact (hin e he).2
  have f1 := freadArr_all hi (es.map Ent.row) (fun a ha => by
    obtain ⟨e, he, rfl⟩ := List.mem_map.1 ha; have := (hin e he).1; omega)
    ⟨packed (idx w) (es.map Ent.row), 0⟩ [] (by simp [In.rest])
  have f2 := freadArr_all hi (es.map Ent.col) (fun a ha => by
    obtain ⟨e, he, rfl⟩ := List.mem_map.1 ha; have := (hin e he).2; omega)
    ⟨packed (idx w) (es.map Ent.col), 0⟩ [] (by simp [In.rest])
  have f3 := freadArr_all hv (es.map Ent.val) (fun _ _ => trivial)
    ⟨packed cv (es.map Ent.val), 0⟩ [] (by simp [In.rest])
  rw [lr] at f1 er
  rw [lc] at f2 ec
  rw [lv] at f3
  refine ⟨⟨Buf.ofList (es.map Ent.row), Buf.ofList (es.map Ent.col), Buf.ofList (es.map Ent.val), some (R + 1), some (K + 1), some es.length⟩,
    R + 1, K + 1, ?_, rfl, rfl, rfl, mapM_ents es _ _, ?_, ?_, ?_⟩
  · unfold readBinCoo3Coo getFileSize
    simp only [hF.val, hF.row, hF.col, Option.map_some]
    rw [packed_length hv, lv, Nat.mod_eq_of_lt hsize, cdiv_ok hv.pos, ok_bind, Nat.mul_div_cancel _ hv.pos, f1, ok_bind]
    simp only
    rw [er, ok_bind, f2, ok_bind]
    simp only
    rw [ec, ok_bind, f3, ok_bind]
    simp only [addM_eq hR, addM_eq hK]
  · intro e he
    have a := mr.1.2 e.row (List.mem_map_of_mem he)
    have b := mc.1.2 e.col (List.mem_map_of_mem he)
    omega
  · rintro rfl
    simp at mr mc
    omega
  · intro hne
    have h1 : R ∈ es.map Ent.row := by
      rcases mr.2 with h | h
      · obtain ⟨e, he⟩ := List.exists_mem_of_ne_nil es hne
        have := mr.1.2 e.row (List.mem_map_of_mem he)
        exact List.mem_map.2 ⟨e, he, by omega⟩
      · exact h
    have h2 : K ∈ es.map Ent.col := by
      rcases mc.2 with h | h
      · obtain ⟨e, he⟩ := List.exists_mem_of_ne_nil es hne
        have := mc.1.2 e.col (List.mem_map_of_mem he)
        exact List.mem_map.2 ⟨e, he, by omega⟩
      · exact h
    obtain ⟨e, he, h1⟩ := List.mem_map.1 h1
    obtain ⟨e', he', h2⟩ := List.mem_map.1 h2
    exact ⟨⟨e, he, by omega⟩, e', he', by omega⟩

/-- **C39.** The generic overload (used by the tools for `Coo2` and `Coo3`) returns the entries in order
but leaves both dimensions indeterminate, for every matrix. -/
theorem C39_generic_reader (hw : 0 < w) (hv : cv.Exact (fun _ => True)) (fs : FS) (frow fcol fval : String)
    (es : List (Ent T)) (hF : Files3 w cv fs frow fcol fval es)
    (hsize : es.length * cv.size < 256 ^ w) (hin : ∀ e ∈ es, e.row < 256 ^ w ∧ e.col < 256 ^ w) :
    ∃ A, readBinCoo3Gen w cv fs frow fcol fval = .ok (some ⟨0, A, [.row, .col, .col]⟩) ∧
      A.rows = none ∧ A.columns = none ∧ A.nnz = some es.length ∧ A.ents = .ok es := by
  have hi := idx_exact hw
  have h0 : 0 < 256 ^ w := Nat.pow_pos (by omega)
  have lr : (es.map Ent.row).length = es.length := by simp
  have lc : (es.map Ent.col).length = es.length := by simp
  have lv : (es.map Ent.val).length = es.length := by simp
  obtain ⟨b1, f1⟩ := readLoop_content (M := 256 ^ w) hi (es.map Ent.row) (fun a ha => by
    obtain ⟨e, he, rfl⟩ := List.mem_map.1 ha; exact (hin e he).1) 0 none
    ⟨packed (idx w) (es.map Ent.row), 0⟩ [] h0 (by simp [In.rest])
  obtain ⟨b2, f2⟩ := readLoop_content (M := 256 ^ w) hi (es.map Ent.col) (fun a ha => by
    obtain ⟨e, he, rfl⟩ := List.mem_map.1 ha; exact (hin e he).2) 0 b1
    ⟨packed (idx w) (es.map Ent.col), 0⟩ [] h0 (by simp [In.rest])
  obtain ⟨b3, f3⟩ := readLoop_content (M := 256 ^ w) hv (es.map Ent.val) (fun _ _ => trivial) 0 none
    ⟨packed cv (es.map Ent.val), 0⟩ [] h0 (by simp [In.rest])
  rw [lr] at f1
  rw [lc] at f2
  rw [lv] at f3
  refine ⟨⟨Buf.ofList (es.map Ent.row), Buf.ofList (es.map Ent.col), Buf.ofList (es.map Ent.val), none, none, some es.length⟩,
    ?_, rfl, rfl, rfl, mapM_ents es _ _⟩
  unfold readBinCoo3Gen getFileSize
  simp only [hF.val, hF.row, hF.col, Option.map_some]
  rw [packed_length hv, lv, Nat.mod_eq_of_lt hsize, cdiv_ok hv.pos, ok_bind, Nat.mul_div_cancel _ hv.pos, f1, ok_bind]
  simp only
  rw [f2, ok_bind]
  simp only
  rw [f3, ok_bind]

/-- C39: the generic overload accepts any three files with code 0, however short the index files are,
and takes the number of entries from the size of the value file reduced modulo the number of index
values (so a value file of 4 GiB or more is read as a smaller matrix when the index type has 4 bytes). -/
theorem C39_generic_accepts_anything (hw : 0 < w) (hv : cv.Exact (fun _ => True)) (fs : FS) (frow fcol fval : String)
    (dr dc dv : Bytes) (h1 : fs frow = some dr) (h2 : fs fcol = some dc) (h3 : fs fval = some dv) :
    ∃ A, readBinCoo3Gen w cv fs frow fcol fval = .ok (some ⟨0, A, [.row, .col, .col]⟩) ∧
      A.rows = none ∧ A.columns = none ∧ A.nnz = some (dv.length % 256 ^ w / cv.size) := by
  have h0 : 0 < 256 ^ w := Nat.pow_pos (by omega)
  unfold readBinCoo3Gen getFileSize
  simp only [h1, h2, h3, Option.map_some]
  rw [cdiv_ok hv.pos, ok_bind]
  generalize dv.length % 256 ^ w / cv.size = n
  obtain ⟨s1, e1, -⟩ := readLoop_count (M := 256 ^ w) (c := idx w) (n := n) hw
    (0, none, ⟨dr, 0⟩, Buf.uninit n) h0 (Nat.le_refl _)
  rw [e1, ok_bind]
  obtain ⟨s2, e2, -⟩ := readLoop_count (M := 256 ^ w) (c := idx w) (n := n) hw
    (0, s1.2.1, ⟨dc, 0⟩, Buf.uninit n) h0 (Nat.le_refl _)
  rw [e2, ok_bind]
  obtain ⟨s3, e3, -⟩ := readLoop_count (M := 256 ^ w) (c := cv) (n := n) hv.pos
    (0, none, ⟨dv, 0⟩, Buf.uninit n) h0 (Nat.le_refl _)
  rw [e3, ok_bind]
  exact ⟨_, rfl, rfl, rfl, rfl⟩

/-- C39: the three-file writer followed by either reader restores the entries. -/
theorem C39_roundtrip (hw : 0 < w) (hv : cv.Exact (fun _ => True)) (d : Disk) (fs : FS) (frow fcol fval : String)
    (h12 : frow ≠ fcol) (h13 : frow ≠ fval) (h23 : fcol ≠ fval) (es : List ε)
    (hd1 : d.Works (packed (idx w) ((ents es).map Ent.row)).length frow)
    (hd2 : d.Works (packed (idx w) ((ents es).map Ent.col)).length fcol)
    (hd3 : d.Works (packed cv ((ents es).map Ent.val)).length fval)
    (hsize : es.length * cv.size < 256 ^ w) (hin : ∀ e ∈ ents es, e.row + 1 < 256 ^ w ∧ e.col + 1 < 256 ^ w) :
    ∃ fs' A B, writeBinCoo3 w cv d fs frow fcol fval es = (0, fs') ∧
      readBinCoo3Coo w cv fs' frow fcol fval = .ok (some ⟨0, A, [.row, .col, .col]⟩) ∧
      readBinCoo3Gen w cv fs' frow fcol fval = .ok (some ⟨0, B, [.row, .col, .col]⟩) ∧
      A.ents = .ok (ents es) ∧ B.ents = .ok (ents es) := by
  have hi := idx_exact hw
  have m1 : es.map (fun e => (NZ.toEnt e).row) = (ents es).map Ent.row := by simp [ents, Function.comp_def]
  have m2 : es.map (fun e => (NZ.toEnt e).col) = (ents es).map Ent.col := by simp [ents, Function.comp_def]
  have m3 : es.map (fun e => (NZ.toEnt e).val) = (ents es).map Ent.val := by simp [ents, Function.comp_def]
  have hl : (ents es).length = es.length := by simp [ents]
  have hF : Files3 w cv (writeBinCoo3 w cv d fs frow fcol fval es).2 frow fcol fval (ents es) ∧
      (writeBinCoo3 w cv d fs frow fcol fval es).1 = 0 := by
    unfold writeBinCoo3
    simp only
    rw [if_pos ⟨hd3.opens, hd1.opens, hd2.opens⟩]
    rw [fwriteEach_nil_take hi, fwriteEach_nil_take hi, fwriteEach_nil_take hv, m1, m2, m3]
    simp only [Disk.close, List.take_take]
    have hd1r := hd1.room
    have hd1k := hd1.kept
    have hd2r := hd2.room
    have hd2k := hd2.kept
    have hd3r := hd3.room
    have hd3k := hd3.kept
    rw [List.take_of_length_le (by omega), List.take_of_length_le (by omega), List.take_of_length_le (by omega)]
    refine ⟨⟨?_, ?_, ?_⟩, trivial⟩
    · rw [FS.set_other _ _ h13, FS.set_other _ _ h12, FS.set_same]
    · rw [FS.set_other _ _ h23, FS.set_same]
    · rw [FS.set_same]
  obtain ⟨A, R, K, a1, -, -, -, a2, -⟩ := C39_coo_reader hw hv _ frow fcol fval (ents es) hF.1 (by rw [hl]; exact hsize) hin
  obtain ⟨B, b1, -, -, -, b2⟩ := C39_generic_reader hw hv _ frow fcol fval (ents es) hF.1 (by rw [hl]; exact hsize)
    (fun e he => by have := hin e he; omega)
  exact ⟨_, A, B, Prod.ext hF.2 rfl, a1, b1, a2, b2⟩

/-- Three such files. -/
example : Files3 4 (idx 4) (((FS.set (fun _ => none) "r" (packed (idx 4) [5, 0])).set "c" (packed (idx 4) [1, 2])).set "v"
    (packed (idx 4) [7, 8])) "r" "c" "v" [(⟨5, 1, 7⟩ : Ent Nat), ⟨0, 2, 8⟩] :=
  ⟨rfl, rfl, rfl⟩

/-! ### read_bin_CSR -/

theorem readCsrRows_ok {l : List Nat} (hw : 0 < w) (rows : Nat) (hr : rows + 1 < 256 ^ w)
    (hl : l.length < 256 ^ w) (hrow : ∀ a ∈ l, a < rows) (f : In) (t : Bytes) (hf : f.rest = packed (idx w) l ++ t) :
    ∃ v, readCsrRows w l.length (none, f, Buf.filled (addM (256 ^ w) rows 1) 0) =
      .ok (v, ⟨f.data, f.pos + l.length * w⟩, Buf.full (rows + 1) (fun k => l.countP (fun a => a + 1 == k))) := by
  have hi := idx_exact hw
  unfold readCsrRows
  obtain ⟨s', e, h⟩ := forLoop_inv (fun i (s : Option Nat × In × Buf Nat) =>
      s.2.1 = ⟨f.data, f.pos + i * w⟩ ∧ s.2.2 = Buf.full (rows + 1) (fun k => (l.take i).countP (fun a => a + 1 == k)))
    (f := fun _ s => do
      let r := fread1 (idx w) s.2.1 s.1
      match r.2.1 with
      | none => .error .uninit
      | some cur => do
        let rp ← incr (256 ^ w) s.2.2 (addM (256 ^ w) cur 1)
        Except.ok (some cur, r.2.2, rp)) (lo := 0) (hi := l.length)
      (s := (none, f, Buf.filled (addM (256 ^ w) rows 1) 0)) (Nat.zero_le _)
      (by simp [Buf.filled, Buf.full, addM_eq hr]) (by
      rintro i ⟨v, f', a⟩ _ hi' ⟨h2, h3⟩
      simp only at h2 h3
      subst h2 h3
      have hrest : (⟨f.data, f.pos + i * w⟩ : In).rest = (idx w).enc l[i] ++ (packed (idx w) (l.drop (i + 1)) ++ t) := by
        rw [In.rest_forward, hf]
        conv_lhs => rw [← List.take_append_drop i l, packed_append, List.append_assoc]
        rw [List.drop_left' (by rw [packed_length hi]; simp [idx]; left; omega), List.drop_eq_getElem_cons hi',
          packed_cons, List.append_assoc]
      have hlt := hrow _ (List.getElem_mem hi')
      rw [fread1_enc hi (by omega) hrest]
      simp only
      rw [addM_eq (by omega), incr_count (l.take i) (fun a => a) l[i] (by omega) (by simp; omega), ok_bind]
      refine ⟨_, rfl, ?_, ?_⟩
      · show (⟨_, _⟩ : In) = _
        rw [Nat.succ_mul, ← Nat.add_assoc]; rfl
      · simp only [List.take_append_getElem])
  obtain ⟨v, f', a⟩ := s'
  simp only at h
  obtain ⟨rfl, rfl⟩ := h
  rw [List.take_length] at e
  exact ⟨v, e⟩

theorem binFile_rest (rows columns : Nat) (es : List (Ent T)) (t : Bytes) :
    (binFile w cv rows columns es ++ t).drop (0 + w + w + w) =
      packed (idx w) (es.map Ent.row) ++ (packed (idx w) (es.map Ent.col) ++ (packed cv (es.map Ent.val) ++ t)) := by
  have hl : ∀ n, (leBytes w n).length = w := leBytes_length w
  rw [binFile_cases]
  simp only [List.append_assoc]
  rw [← List.drop_drop, ← List.drop_drop, List.drop_left' (by rw [hl]; omega), List.drop_left' (by rw [hl]), List.drop_left' (by rw [hl])]

/-- The header of a file. -/
theorem readHeader (hw : 0 < w) (rows columns nnz : Nat) (hr : rows < 256 ^ w) (hcol : columns < 256 ^ w)
    (hn : nnz < 256 ^ w) (t : Bytes) :
    fread1 (idx w) ⟨leBytes w rows ++ (leBytes w columns ++ (leBytes w nnz ++ t)), 0⟩ none =
      (1, some rows, ⟨leBytes w rows ++ (leBytes w columns ++ (leBytes w nnz ++ t)), 0 + w⟩) ∧
    fread1 (idx w) ⟨leBytes w rows ++ (leBytes w columns ++ (leBytes w nnz ++ t)), 0 + w⟩ none =
      (1, some columns, ⟨leBytes w rows ++ (leBytes w columns ++ (leBytes w nnz ++ t)), 0 + w + w⟩) ∧
    fread1 (idx w) ⟨leBytes w rows ++ (leBytes w columns ++ (leBytes w nnz ++ t)), 0 + w + w⟩ none =
      (1, some nnz, ⟨leBytes w rows ++ (leBytes w columns ++ (leBytes w nnz ++ t)), 0 + w + w + w⟩) := by
  have hi := idx_exact hw
  have hl : ∀ n, (leBytes w n).length = w := leBytes_length w
  refine ⟨fread1_enc hi hr rfl, fread1_enc (t := leBytes w nnz ++ t) hi hcol ?_, fread1_enc (t := t) hi hn ?_⟩
  · simp only [In.rest]; rw [List.drop_left' (by rw [hl]; omega)]; rfl
  · simp only [In.rest]; rw [← List.drop_drop, List.drop_left' (by rw [hl]; omega), List.drop_left' (hl _)]; rfl

theorem readBinCsr_file (hw : 0 < w) (hv : cv.Exact (fun _ => True)) (fs : FS) (name : String)
    (rows columns : Nat) (es : List (Ent T)) (hr : rows + 1 < 256 ^ w) (hcol : columns < 256 ^ w)
    (hlen : es.length < 256 ^ w) (hin : InRange es rows columns) (t : Bytes)
    (hf : fs name = some (binFile w cv rows columns es ++ t)) :
    readBinCsr w cv fs name = .ok (0, some (csrOf (256 ^ w) es rows columns)) := by
  have hi := idx_exact hw
  have lr : (es.map Ent.row).length = es.length := by simp
  have lc : (es.map Ent.col).length = es.length := by simp
  have lv : (es.map Ent.val).length = es.length := by simp
  have hsz : (idx w).size = w := rfl
  have hrest := binFile_rest (w := w) (cv := cv) rows columns es t
  obtain ⟨v, h1⟩ := readCsrRows_ok (l := es.map Ent.row) hw rows hr (by rw [lr]; exact hlen)
    (fun a ha => by obtain ⟨e, he, rfl⟩ := List.mem_map.1 ha; exact (hin e he).1)
    ⟨binFile w cv rows columns es ++ t, 0 + w + w + w⟩ _ hrest
  have h2 := freadArr_all hi (es.map Ent.col) (fun a ha => by
      obtain ⟨e, he, rfl⟩ := List.mem_map.1 ha; have := (hin e he).2; omega)
    ⟨binFile w cv rows columns es ++ t, 0 + w + w + w + es.length * w⟩ (packed cv (es.map Ent.val) ++ t) (by
      simp only [In.rest]
      rw [← List.drop_drop, hrest, List.drop_left' (by rw [packed_length hi, lr, hsz])])
  have h3 := freadArr_all hv (es.map Ent.val) (fun _ _ => trivial)
    ⟨binFile w cv rows columns es ++ t, 0 + w + w + w + es.length * w + es.length * w⟩ t (by
      simp only [In.rest]
      rw [← List.drop_drop, ← List.drop_drop, hrest, List.drop_left' (by rw [packed_length hi, lr, hsz]),
        List.drop_left' (by rw [packed_length hi, lc, hsz])])
  rw [lr] at h1
  rw [lc, hsz] at h2
  rw [lv] at h3
  unfold readBinCsr
  rw [hf]
  simp only
  rw [binFile_cases] at h1 h2 h3 ⊢
  simp only [List.append_assoc] at h1 h2 h3 ⊢
  obtain ⟨g1, g2, g3⟩ := readHeader hw rows columns es.length (by omega) hcol hlen
    (packed (idx w) (es.map Ent.row) ++ (packed (idx w) (es.map Ent.col) ++ (packed cv (es.map Ent.val) ++ t)))
  rw [g1]
  simp only
  rw [g2]
  simp only
  rw [g3]
  simp only
  rw [h1, ok_bind]
  simp only
  rw [h2, ok_bind]
  simp only
  rw [h3, ok_bind]
  simp only
  rw [prefixSum_count (es.map Ent.row) (fun a => a) rfl (by rw [lr]; exact hlen), ok_bind, Buf.get_full (by omega), ok_bind]
  simp only [Nat.le_refl, if_true]
  rw [countP_lt_all (es.map Ent.row) (fun a => a) rows (fun a ha => by
    obtain ⟨e, he, rfl⟩ := List.mem_map.1 ha; exact (hin e he).1), lr]
  simp only [BEq.rfl, cassert_true, ok_bind]
  refine congrArg (fun A => Except.ok ((0 : Int), some A)) ?_
  unfold csrOf
  have hcol' : ∀ k : Nat, (es.map Ent.col)[k]? = (es[k]?).map (fun e => (NZ.toEnt e).col % 256 ^ w) := by
    intro k
    rw [List.getElem?_map]
    by_cases hk : k < es.length
    · have := (hin _ (List.getElem_mem hk)).2
      simp only [List.getElem?_eq_getElem hk, Option.map_some]
      show some es[k].col = some (es[k].col % _)
      rw [Nat.mod_eq_of_lt (by omega)]
    · rw [List.getElem?_eq_none (by omega)]; rfl
  have hval' : ∀ k : Nat, (es.map Ent.val)[k]? = (es[k]?).map (fun e => (NZ.toEnt e).val) := fun k => List.getElem?_map
  congr 1
  · exact Buf.ext' (by simp) (fun k => hval' k)
  · exact Buf.ext' (by simp) (fun k => hcol' k)
  · congr 1
    funext k
    simp only [List.countP_map, Function.comp_def]
    rfl

/-- **C42.** Reading a `.bin` file whose entries are sorted by row and column gives the same matrix as
converting the entries, in whatever order they were, in memory; so its product is exact. -/
theorem C42_read_csr [Add T] [Mul T] (hw : 0 < w) (hv : cv.Exact (fun _ => True)) (fs : FS) (name : String)
    (rows columns : Nat) (es : List (Ent T)) (hr : rows + 1 < 256 ^ w) (hcol : columns < 256 ^ w)
    (hlen : es.length < 256 ^ w) (hin : InRange es rows columns)
    (hf : fs name = some (binFile w cv rows columns (sortTriplets es))) :
    ∃ A, readBinCsr w cv fs name = .ok (0, some A) ∧
      cooToCsr (256 ^ w) es rows columns = .ok (A, sortTriplets es) := by
  have hin' : InRange (sortTriplets es) rows columns := fun e he => hin e (mem_sortTriplets.1 he)
  refine ⟨_, readBinCsr_file hw hv fs name rows columns _ hr hcol (by rw [length_sortTriplets]; exact hlen) hin' []
    (by rw [hf, List.append_nil]), ?_⟩
  unfold cooToCsr
  simp only [Bool.false_eq_true, if_false]
  rw [csrBuild_spec _ _ _ _ _ (by rw [length_sortTriplets]; exact hlen) hr (fun e he => (hin' e he).1), ok_bind]

theorem freadArr_any {α : Type} {c : Codec α} (hc : 0 < c.size) (n m i : Nat) (f : In) (a : Buf α) (ha : a.len = m) (hm : i + n ≤ m) :
    ∃ r f' a', freadArr c n i f a = .ok (r, f', a') ∧ f'.data = f.data ∧ f'.rest = f.rest.drop (n * c.size) ∧ a'.len = m ∧
      ∀ k, i + f.rest.length / c.size ≤ k → a.dat k = none → a'.dat k = none := by
  induction n generalizing i f a with
  | zero => exact ⟨0, f, a, rfl, rfl, by simp, ha, fun _ _ h => h⟩
  | succ n ih =>
    rw [freadArr]
    by_cases h : c.size ≤ f.rest.length
    · have h1 : fread1 c f (a.dat i) = (1, some (c.dec (f.rest.take c.size)), ⟨f.data, f.pos + c.size⟩) := by
        unfold fread1; rw [if_pos h]
      rw [h1]
      simp only
      rw [if_neg (by omega)]
      unfold Buf.putOpt
      rw [if_pos (by omega), ok_bind, if_pos trivial]
      obtain ⟨r, f', a', e1, e2, e3, e4, e5⟩ := ih (i + 1) ⟨f.data, f.pos + c.size⟩
        ⟨a.len, fun k => if k = i then some (c.dec (f.rest.take c.size)) else a.dat k⟩ ha (by omega)
      rw [e1, ok_bind]
      refine ⟨_, f', a', rfl, e2, ?_, e4, fun k hk hn => ?_⟩
      · rw [e3, In.rest_forward, List.drop_drop, Nat.succ_mul, Nat.add_comm]
      · have hq : f.rest.length / c.size = (f.rest.length - c.size) / c.size + 1 := by
          rw [← Nat.add_div_right _ hc, Nat.sub_add_cancel h]
        refine e5 k ?_ ?_
        · rw [In.rest_forward, List.length_drop]
          rw [hq] at hk
          generalize (f.rest.length - c.size) / c.size = q at hk ⊢
          omega
        · simp only
          rw [hq] at hk
          generalize (f.rest.length - c.size) / c.size = q at hk
          rw [if_neg (by omega)]; exact hn
    · rw [fread1_short (by omega)]
      simp only
      by_cases h0 : f.rest.length = 0
      · rw [if_pos h0, ok_bind, if_neg (by decide)]
        refine ⟨_, _, _, rfl, rfl, ?_, ha, fun _ _ hn => hn⟩
        have hnil := List.eq_nil_of_length_eq_zero h0
        rw [In.rest_forward, hnil]; simp
      · rw [if_neg h0]
        unfold Buf.putOpt
        rw [if_pos (by omega), ok_bind, if_neg (by decide)]
        refine ⟨_, _, _, rfl, rfl, ?_, ha, fun k _ hn => ?_⟩
        · have hle : f.rest.length ≤ (n + 1) * c.size := by
            rw [Nat.succ_mul]; omega
          rw [In.rest_forward, List.drop_eq_nil_of_le (Nat.le_refl _), List.drop_eq_nil_of_le hle]
        · simp only [if_neg h0]
          split <;> [rfl; exact hn]

/-- C42, the other side: `read_bin_CSR` looks at no count, so a file cut anywhere after its row indices
is accepted with code 0, and the last value is then whatever was in memory. -/
theorem C42_truncation_accepted (hw : 0 < w) (hv : cv.Exact (fun _ => True)) (fs : FS) (name : String)
    (rows columns : Nat) (es : List (Ent T)) (hr : rows + 1 < 256 ^ w) (hcol : columns < 256 ^ w)
    (hlen : es.length < 256 ^ w) (hin : InRange es rows columns) (k : Nat)
    (hk1 : 3 * w + es.length * w ≤ k) (hk2 : k < (binFile w cv rows columns es).length)
    (hf : fs name = some ((binFile w cv rows columns es).take k)) :
    ∃ A, readBinCsr w cv fs name = .ok (0, some A) ∧ A.rows = rows ∧ A.columns = columns ∧
      A.nonzeros = .ok es.length ∧ A.val.get (es.length - 1) = .error .uninit := by
  have hi := idx_exact hw
  have hpos := hv.pos
  have hsz : (idx w).size = w := rfl
  have lr : (es.map Ent.row).length = es.length := by simp
  have hl : ∀ n, (leBytes w n).length = w := leBytes_length w
  rw [binFile_length hw hv] at hk2
  have hne : 0 < es.length := by
    rcases Nat.eq_zero_or_pos es.length with h | h
    · rw [h] at hk1 hk2; simp at hk1 hk2; omega
    · exact h
  -- the file still holds the header and all row indices
  have hfile : (binFile w cv rows columns es).take k = leBytes w rows ++ (leBytes w columns ++ (leBytes w es.length ++
      (packed (idx w) (es.map Ent.row) ++ (packed (idx w) (es.map Ent.col) ++ packed cv (es.map Ent.val)).take (k - (3 * w + es.length * w))))) := by
    rw [binFile_cases]
    have : leBytes w rows ++ (leBytes w columns ++ (leBytes w es.length ++ (packed (idx w) (es.map Ent.row) ++
        (packed (idx w) (es.map Ent.col) ++ packed cv (es.map Ent.val))))) =
      (leBytes w rows ++ (leBytes w columns ++ (leBytes w es.length ++ packed (idx w) (es.map Ent.row)))) ++
        (packed (idx w) (es.map Ent.col) ++ packed cv (es.map Ent.val)) := by simp
    rw [this, List.take_append]
    have hlen' : (leBytes w rows ++ (leBytes w columns ++ (leBytes w es.length ++ packed (idx w) (es.map Ent.row)))).length
        = 3 * w + es.length * w := by
      simp only [List.length_append, hl, packed_length hi, lr, hsz]; omega
    rw [List.take_of_length_le (by omega), hlen']
    simp
  generalize hu : (packed (idx w) (es.map Ent.col) ++ packed cv (es.map Ent.val)).take (k - (3 * w + es.length * w)) = u at hfile
  have hul : u.length = k - (3 * w + es.length * w) := by
    rw [← hu, List.length_take, List.length_append, packed_length hi, packed_length hv, hsz]; simp; omega
  obtain ⟨g1, g2, g3⟩ := readHeader hw rows columns es.length (by omega) hcol hlen (packed (idx w) (es.map Ent.row) ++ u)
  obtain ⟨v, h1⟩ := readCsrRows_ok (l := es.map Ent.row) hw rows hr (by rw [lr]; exact hlen)
    (fun a ha => by obtain ⟨e, he, rfl⟩ := List.mem_map.1 ha; exact (hin e he).1)
    ⟨leBytes w rows ++ (leBytes w columns ++ (leBytes w es.length ++ (packed (idx w) (es.map Ent.row) ++ u))), 0 + w + w + w⟩ u (by
      simp only [In.rest]
      rw [← List.drop_drop, ← List.drop_drop, List.drop_left' (by rw [hl]; omega), List.drop_left' (hl _), List.drop_left' (hl _)])
  rw [lr] at h1
  unfold readBinCsr
  rw [hf]
  simp only [hfile]
  rw [g1]
  simp only
  rw [g2]
  simp only
  rw [g3]
  simp only
  rw [h1, ok_bind]
  simp only
  obtain ⟨r2, f2, a2, e1, -, e3, -, -⟩ := freadArr_any (c := idx w) hw es.length es.length 0
    ⟨leBytes w rows ++ (leBytes w columns ++ (leBytes w es.length ++ (packed (idx w) (es.map Ent.row) ++ u))),
      0 + w + w + w + es.length * w⟩ (Buf.uninit es.length) rfl (by omega)
  rw [e1, ok_bind]
  obtain ⟨r3, f3, a3, e4, -, -, e6, e7⟩ := freadArr_any (c := cv) hpos es.length es.length 0 f2 (Buf.uninit es.length) rfl (by omega)
  simp only
  rw [e4, ok_bind]
  simp only
  rw [prefixSum_count (es.map Ent.row) (fun a => a) rfl (by rw [lr]; exact hlen), ok_bind, Buf.get_full (by omega), ok_bind]
  simp only [Nat.le_refl, if_true]
  have hcnt := countP_lt_all (es.map Ent.row) (fun a => a) rows (fun a ha => by
    obtain ⟨e, he, rfl⟩ := List.mem_map.1 ha; exact (hin e he).1)
  rw [hcnt, lr]
  simp only [BEq.rfl, cassert_true, ok_bind]
  refine ⟨_, rfl, rfl, rfl, ?_, ?_⟩
  · unfold Csr.nonzeros
    rw [Buf.get_full (by simp only; omega)]
    simp only [Nat.le_refl, if_true]
    rw [hcnt, lr]
  · have hrestL : f2.rest.length < es.length * cv.size := by
      have hd : (⟨leBytes w rows ++ (leBytes w columns ++ (leBytes w es.length ++ (packed (idx w) (es.map Ent.row) ++ u))),
          0 + w + w + w + es.length * w⟩ : In).rest = u := by
        simp only [In.rest]
        rw [← List.drop_drop, ← List.drop_drop, ← List.drop_drop, List.drop_left' (by rw [hl]; omega), List.drop_left' (hl _),
          List.drop_left' (hl _), List.drop_left' (by rw [packed_length hi, lr, hsz])]
      rw [e3, List.length_drop, hd, hul, hsz]
      have : 0 < es.length * cv.size := Nat.mul_pos hne hpos
      omega
    have hq : f2.rest.length / cv.size < es.length := (Nat.div_lt_iff_lt_mul hpos).2 hrestL
    have hnone := e7 (es.length - 1) (by omega) rfl
    simp only [Buf.get, e6, hnone]
    rw [if_pos (by omega)]

/-- A file to which C42 and its converse apply: two entries of 4 + 4 + 4 bytes; the header and the row
indices take 20 of its 36 bytes. -/
example : (binFile 4 (idx 4) 2 3 [(⟨0, 2, 9⟩ : Ent Nat), ⟨1, 0, 7⟩]).length = 36 ∧
    sortTriplets [(⟨1, 0, 7⟩ : Ent Nat), ⟨0, 2, 9⟩] = [⟨0, 2, 9⟩, ⟨1, 0, 7⟩] := by
  constructor
  · decide
  · simp [sortTriplets, pssSort, List.mergeSort, leOf, ltRowMajor, NZ.toEnt]

end Gsb
