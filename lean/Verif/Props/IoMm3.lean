import Verif.Props.IoMm2
/-
C74: MatrixMarket files whose size line does not fit their entry lines.
-/
namespace Gsb
variable {T : Type}

theorem flatMap_raw_false (M : Nat) (conv : Bytes → T) (ls : List MmLine) :
    ls.flatMap (MmLine.raw M conv false) = ls.map (fun l => ⟨fromOne M l.row, fromOne M l.col, conv l.val.text⟩) := by
  induction ls with
  | nil => rfl
  | cons l ls ih => rw [List.flatMap_cons, ih]; rfl

/-- Reading the entries of a file that is not symmetric: as many lines as declared, or as there are. -/
theorem mmEntries_take (M : Nat) (conv : Bytes → T) {nr nc n : Nat} (hnM : n < M) {tail : Bytes}
    (ht : Blank tail) (ls : List MmLine) (hls : ∀ l ∈ ls, l.Syntax ∧ l.row < 2 ^ 64 ∧ l.col < 2 ^ 64) (v : MmVars T) :
    ∃ A, mmEntries M conv false nr nc n v (joinLines (ls.map MmLine.text) tail) = .ok A ∧
      A.ents = .ok ((ls.take n).map (fun l => ⟨fromOne M l.row, fromOne M l.col, conv l.val.text⟩)) ∧
      A.rows = some (toIdx M nr) ∧ A.columns = some (toIdx M nc) := by
  rcases Nat.le_total ls.length n with h | h
  · obtain ⟨A, h1, h2, h3, h4, -⟩ := mmEntries_raw M conv false (nr := nr) (nc := nc) (nnz := n) ht ls hls v
      (by rw [flatMap_raw_false, List.length_map, toIdx_nat hnM]; exact h)
    rw [flatMap_raw_false] at h2
    exact ⟨A, h1, by rw [h2, List.take_of_length_le h], h3, h4⟩
  · obtain ⟨A, h1, h2, h3, h4⟩ := mmEntries_full M conv false (nr := nr) (nc := nc) (nnz := n) ht (ls.take n) (ls.drop n)
      (fun l hl => hls l (List.mem_of_mem_take hl)) v
      (by rw [flatMap_raw_false, List.length_map, toIdx_nat hnM, List.length_take]; omega)
    rw [List.take_append_drop] at h1
    rw [flatMap_raw_false] at h2
    exact ⟨A, h1, h2, h3, h4⟩

/-- C74, general files: however many entry lines there are, `read_mm_COO` returns 0 and the first `nnz` of
them, where `nnz` is the number in the size line (all of them if there are fewer). -/
theorem C74_general (M : Nat) (hM : 2 ^ 31 ≤ M) (conv : Bytes → T) (fuel : Nat) (hfuel : 0 < fuel) (fs : FS)
    (name : String) {F : MmFile} (hF : F.HeadOk) (hlines : ∀ l ∈ F.lines, l.Ok F.rows F.columns) (htail : Blank F.tail)
    (hf : F.field = chars "real" ∨ F.field = chars "integer") (hs : F.symmetry = chars "general")
    (hr : F.rows < 2 ^ 31) (hc : F.columns < 2 ^ 31) (hn : F.nnz < 2 ^ 31) (hfs : fs name = some F.text) :
    ∃ A, readMmCoo M conv fuel fs name = .ok (0, A) ∧ A.rows = some F.rows ∧ A.columns = some F.columns ∧
      A.ents = .ok ((F.lines.take F.nnz).map (MmLine.ent conv)) := by
  obtain ⟨A, h1, h2, h3, h4⟩ := mmEntries_take M conv (nr := F.rows) (nc := F.columns) (n := F.nnz) (by omega) htail F.lines
    (fun l hl => ⟨(hlines l hl).toSyntax, by have := (hlines l hl).row; omega, by have := (hlines l hl).col; omega⟩)
    ⟨none, none, none⟩
  refine ⟨A, ?_, by rw [h3, toIdx_nat (by omega)], by rw [h4, toIdx_nat (by omega)], ?_⟩
  · rw [readMm_body M conv fuel hfuel fs name hF (by rcases hf with h | h <;> simp [h]) (.inl hs) hr hc hn hfs, MmFile.body, h1]
    rfl
  · rw [h2]
    refine congrArg Except.ok (List.map_congr_left (fun l hl => ?_))
    have := hlines l (List.mem_of_mem_take hl)
    rw [fromOne_eq this.row.1 (by have := this.row; omega) (by have := this.row; omega),
      fromOne_eq this.col.1 (by have := this.col; omega) (by have := this.col; omega)]
    rfl

/-- C74, symmetric files: `read_mm_COO` looks at up to twice as many entry lines as the size line
says, so with too many lines it returns more entries than a general file would give. -/
theorem C74_symmetric (M : Nat) (hM : 2 ^ 31 ≤ M) (conv : Bytes → T) (fuel : Nat) (hfuel : 0 < fuel) (fs : FS)
    (name : String) {F : MmFile} (hF : F.HeadOk) (hlines : ∀ l ∈ F.lines, l.Ok F.rows F.columns) (htail : Blank F.tail)
    (hf : F.field = chars "real" ∨ F.field = chars "integer") (hs : F.symmetry = chars "symmetric")
    (hr : F.rows < 2 ^ 31) (hc : F.columns < 2 ^ 31) (hn : F.nnz < 2 ^ 30) (hfs : fs name = some F.text)
    (hcount : M = 2 ^ 32 ∨ (((F.lines.take (2 * F.nnz)).map (MmLine.ent conv)).flatMap mirrored).length < 2 ^ 31) :
    ∃ A, readMmCoo M conv fuel fs name = .ok (0, A) ∧ A.rows = some F.rows ∧ A.columns = some F.columns ∧
      A.ents = .ok (((F.lines.take (2 * F.nnz)).map (MmLine.ent conv)).flatMap mirrored) := by
  have hb := hF.bannerOk (by rcases hf with h | h <;> simp [h]) (by simp [hs])
  obtain ⟨rest, hsz, hskip⟩ := mmReadSize_ok hF.comments (hF.sizeOk hr hc (by omega)) hfuel F.body
  have hout : ∀ ls : List MmLine, ls.flatMap (MmLine.out conv true) = (ls.map (MmLine.ent conv)).flatMap mirrored := by
    intro ls; rw [List.flatMap_map]; rfl
  have hraw : ∀ ls : List MmLine, (∀ l ∈ ls, l.Ok F.rows F.columns) →
      ls.flatMap (MmLine.raw M conv true) = ls.flatMap (MmLine.out conv true) := fun ls h =>
    List.flatMap_congr (fun l hl => raw_eq_out conv true (h l hl) (by omega) (by omega) (by omega) (by omega))
  obtain ⟨v', hk⟩ := mmCount_take conv htail (show F.rows < 2 ^ 64 by omega) (show F.columns < 2 ^ 64 by omega)
    F.lines hlines (toIdx M (2 * (F.nnz : Int))) ⟨none, none, none⟩ 0
  rw [Nat.zero_add, show (2 * (F.nnz : Int)) = ((2 * F.nnz : Nat) : Int) by push_cast; rfl, toIdx_nat (by omega)] at hk
  have hlen : ((F.lines.take (2 * F.nnz)).flatMap (MmLine.out conv true)).length < 2 ^ 32 := by
    have : ∀ ls : List MmLine, (ls.flatMap (MmLine.out conv true)).length ≤ 2 * ls.length := by
      intro ls
      induction ls with
      | nil => simp
      | cons l ls ih =>
        have := mirrored_length_le (l.ent conv)
        rw [List.flatMap_cons, List.length_append, List.length_cons]
        have e : l.out conv true = mirrored (l.ent conv) := rfl
        rw [e]; omega
    have := this (F.lines.take (2 * F.nnz))
    have := List.length_take_le (2 * F.nnz) F.lines
    omega
  have hmem : ∀ l ∈ F.lines.take (2 * F.nnz), l.Ok F.rows F.columns := fun l hl => hlines l (List.mem_of_mem_take hl)
  obtain ⟨A, h1, h2, h3, h4⟩ := mmEntries_full M conv true (nr := F.rows) (nc := F.columns)
    (nnz := toInt32 ((F.lines.take (2 * F.nnz)).flatMap (MmLine.out conv true)).length) htail
    (F.lines.take (2 * F.nnz)) (F.lines.drop (2 * F.nnz))
    (fun l hl => ⟨(hmem l hl).toSyntax, by have := (hmem l hl).row; omega, by have := (hmem l hl).col; omega⟩)
    v' (by
      rw [hraw _ hmem]
      rcases hcount with rfl | h
      · generalize ((F.lines.take (2 * F.nnz)).flatMap (MmLine.out conv true)).length = L at hlen ⊢
        unfold toInt32 toIdx
        split_ifs <;> omega
      · rw [← hout] at h
        rw [toInt32_nat h, toIdx_nat (by omega)])
  rw [List.take_append_drop] at h1
  refine ⟨A, ?_, by rw [h3, toIdx_nat (by omega)], by rw [h4, toIdx_nat (by omega)], by rw [h2, hraw _ hmem, hout]⟩
  unfold readMmCoo
  rw [hfs]
  simp only
  rw [MmFile.text, mmReadBanner_ok hb]
  simp only [ok_bind]
  rw [if_neg (by simp), if_neg (by
    rcases hf with h | h <;> rw [h] <;> decide), MmFile.sizeLine, hsz]
  simp only [ok_bind]
  rw [if_neg (by simp), if_pos (by rw [hs]; decide), if_pos (by omega),
    ← mmCount_skipWs, hskip, mmCount_skipWs, MmFile.body]
  rw [show (2 * (F.nnz : Int)) = ((2 * F.nnz : Nat) : Int) by push_cast; rfl, toIdx_nat (by omega), hk]
  simp only [ok_bind]
  rw [← mmEntries_skipWs, hskip, mmEntries_skipWs, MmFile.body, h1]
  rfl

/-- C74, a symmetric file that declares 2^30 entries or more: twice the number does not fit `int`, so
reading it is undefined behaviour, whatever the entry lines are. -/
theorem C74_symmetric_overflow (M : Nat) (conv : Bytes → T) (fuel : Nat) (hfuel : 0 < fuel) (fs : FS)
    (name : String) {F : MmFile} (hF : F.HeadOk) (hf : F.field = chars "real" ∨ F.field = chars "integer")
    (hs : F.symmetry = chars "symmetric") (hr : F.rows < 2 ^ 31) (hc : F.columns < 2 ^ 31) (hn : F.nnz < 2 ^ 31)
    (hbig : 2 ^ 30 ≤ F.nnz) (hfs : fs name = some F.text) : readMmCoo M conv fuel fs name = .error .ub := by
  have hb := hF.bannerOk (by rcases hf with h | h <;> simp [h]) (by simp [hs])
  obtain ⟨rest, hsz, hskip⟩ := mmReadSize_ok hF.comments (hF.sizeOk hr hc hn) hfuel F.body
  unfold readMmCoo
  rw [hfs]
  simp only
  rw [MmFile.text, mmReadBanner_ok hb]
  simp only [ok_bind]
  rw [if_neg (by simp), if_neg (by
    rcases hf with h | h <;> rw [h] <;> decide), MmFile.sizeLine, hsz]
  simp only [ok_bind]
  rw [if_neg (by simp), if_pos (by rw [hs]; decide), if_neg (by omega)]

/-! ### The number of entries is missing -/

/-- A line with one or two numbers only. -/
inductive ShortLine : Bytes → Prop where
  | one {a t b : Bytes} {n : Nat} : Blank a → Numeral t n → n < 2 ^ 31 → Blank b → ShortLine (a ++ (t ++ b))
  | two {a t b u c : Bytes} {n m : Nat} : Blank a → Numeral t n → n < 2 ^ 31 → Blank b → b ≠ [] → Numeral u m → m < 2 ^ 31 →
      Blank c → ShortLine (a ++ (t ++ (b ++ (u ++ c))))

theorem stop_blank_nl {b : Bytes} (h : Blank b) (t : Bytes) : Stop isDigit (b ++ nl :: t) := by
  cases b with
  | nil => rw [List.nil_append, stop_cons]; decide
  | cons x b => rw [List.cons_append, stop_cons]; exact blank_not_digit (h x (by simp))

theorem scanD_blank_nl {b : Bytes} (h : Blank b) : scanD (b ++ [nl]) = .ok .eof := by
  unfold scanD scanInt
  rw [skipWs_all]
  intro x hx
  rw [List.mem_append] at hx
  rcases hx with hx | hx
  · exact h x hx
  · simp at hx; subst hx; decide

theorem ShortLine.notThree {t : Bytes} (h : ShortLine t) : NotThree t := by
  cases h with
  | @one a t b n h1 h2 h3 h4 =>
    refine ⟨(1, (n, 0, 0), []), ?_, by simp⟩
    unfold scanThreeD
    rw [show a ++ (t ++ b) ++ [nl] = a ++ (t ++ (b ++ [nl])) by simp, scanD_numeral h1 h2 h3 (stop_blank_nl h4 [])]
    simp only [ok_bind]
    rw [scanD_blank_nl h4]
    rfl
  | @two a t b u c n m h1 h2 h3 h4 hne h5 h6 h7 =>
    refine ⟨(2, (n, m, 0), []), ?_, by simp⟩
    unfold scanThreeD
    rw [show a ++ (t ++ (b ++ (u ++ c))) ++ [nl] = a ++ (t ++ (b ++ (u ++ (c ++ [nl])))) by simp,
      scanD_numeral h1 h2 h3 (stop_digit_of_blank h4 hne)]
    simp only [ok_bind]
    rw [scanD_numeral h4 h5 h6 (stop_blank_nl h7 [])]
    simp only [ok_bind]
    rw [scanD_blank_nl h7]
    rfl

theorem Numeral.head {t : Bytes} {n : Nat} (h : Numeral t n) : ∃ b u, t = b :: u ∧ b ≠ 37 := by
  rcases h.cases with ⟨hne, hd, -⟩ | ⟨d, rfl, -⟩
  · cases t with
    | nil => exact absurd rfl hne
    | cons b u =>
      refine ⟨b, u, rfl, ?_⟩
      rintro rfl
      have := hd 37 (by simp)
      revert this; decide
  · exact ⟨43, d, rfl, by decide⟩

theorem ShortLine.head {t : Bytes} (h : ShortLine t) : (t ++ [nl]).head? ≠ some 37 := by
  cases h with
  | one h1 h2 h3 h4 =>
    obtain ⟨x, u, rfl, hx⟩ := h2.head
    rw [List.append_assoc]
    exact blank_head h1 (by simpa using hx)
  | two h1 h2 h3 h4 hne h5 h6 h7 =>
    obtain ⟨x, u, rfl, hx⟩ := h2.head
    rw [List.append_assoc]
    exact blank_head h1 (by simpa using hx)

/-- C74, the number of entries is missing: if the size line has one or two numbers only, it is ignored
and the first entry line, provided its value is a natural number `k`, is taken for the size line.  The
matrix returned, with return value 0, has that entry's row and column as its dimensions, and of the
other entry lines the first `k`, whether or not they lie within these dimensions. -/
theorem C74_count_missing (M : Nat) (hM : M = 2 ^ 32 ∨ M = 2 ^ 64) (conv : Bytes → T) (fuel : Nat) (hfuel : 0 < fuel) (fs : FS)
    (name : String) {banner field : Bytes} {comments : List Bytes} {short tail digits : Bytes} {k : Nat} {l : MmLine}
    {ls : List MmLine} (hbl : LineOk banner)
    (hbanner : ∃ a b c d, fields banner = [chars "%%MatrixMarket", a, b, c, d] ∧ a.map lowerByte = chars "matrix" ∧
      b.map lowerByte = chars "coordinate" ∧ c.map lowerByte = field ∧ d.map lowerByte = chars "general")
    (hf : field = chars "real" ∨ field = chars "integer") (hcomments : ∀ c ∈ comments, LineOk c ∧ c.head? = some 37)
    (hsl : LineOk short) (hshort : ShortLine short)
    (hl : l.Syntax) (hr : l.row < 2 ^ 31) (hc : l.col < 2 ^ 31) (hv : l.val = ⟨[], digits, none, none⟩)
    (hk : Unsigned digits k) (hk31 : k < 2 ^ 31)
    (hne : ls ≠ []) (hls : ∀ l ∈ ls, l.Syntax ∧ l.row < 2 ^ 64 ∧ l.col < 2 ^ 64) (htail : Blank tail)
    (hfs : fs name = some (banner ++ nl :: (comments.flatMap (fun c => c ++ [nl]) ++
      (short ++ nl :: joinLines ((l :: ls).map MmLine.text) tail)))) :
    ∃ A, readMmCoo M conv fuel fs name = .ok (0, A) ∧ A.rows = some l.row ∧ A.columns = some l.col ∧
      A.ents = .ok ((ls.take k).map (fun l => ⟨unchecked M l.row, unchecked M l.col, conv l.val.text⟩)) := by
  have hM' : 2 ^ 31 ≤ M := by rcases hM with rfl | rfl <;> decide
  obtain ⟨A, h1, h2, h3, h4⟩ := mmEntries_take M conv (nr := l.row) (nc := l.col) (n := k) (by omega) htail ls hls
    ⟨none, none, none⟩
  have hb : BannerOk banner field (chars "general") :=
    ⟨hbl, hbanner, by rcases hf with h | h <;> simp [h], by simp⟩
  obtain ⟨rest, hsz, hskip⟩ := mmReadSize_ok hcomments (lead := short ++ [nl]) (s0 := l.b0) (t0 := l.rowText) (s1 := l.b1)
    (t1 := l.colText) (s2 := l.b2) (t2 := digits) (s3 := l.b3) (z0 := l.row) (z1 := l.col) (z2 := k)
    ⟨.inr ⟨short, [], rfl, hsl, hshort.head, hshort.notThree, blank_nil⟩, hl.b0, hl.b1, hl.b2, hl.b3,
      .inl ⟨_, hl.rowText, hr, rfl⟩, .inl ⟨_, hl.colText, hc, rfl⟩, .inl ⟨_, hk.numeral, hk31, rfl⟩⟩ hfuel
    (joinLines (ls.map MmLine.text) tail)
  refine ⟨A, ?_, by rw [h3, toIdx_nat (by omega)], by rw [h4, toIdx_nat (by omega)], ?_⟩
  · have hjoin : short ++ nl :: joinLines ((l :: ls).map MmLine.text) tail = short ++ [nl] ++
        ((l.b0 ++ l.rowText ++ l.b1 ++ l.colText ++ l.b2 ++ digits ++ l.b3) ++ nl :: joinLines (ls.map MmLine.text) tail) := by
      cases ls with
      | nil => exact absurd rfl hne
      | cons l' ls => simp [joinLines, MmLine.text, hv, DecText.text, fracText, expText]
    unfold readMmCoo
    rw [hfs]
    simp only
    rw [hjoin, mmReadBanner_ok hb]
    simp only [ok_bind]
    rw [if_neg (by simp), if_neg (by rcases hf with rfl | rfl <;> decide), hsz]
    simp only [ok_bind]
    rw [if_neg (by simp), if_neg (by decide), ← mmEntries_skipWs, hskip, mmEntries_skipWs, h1]
    rfl
  · rw [h2]
    refine congrArg Except.ok (List.map_congr_left (fun l hl => ?_))
    have := hls l (List.mem_of_mem_take hl)
    rw [fromOne_unchecked hM this.2.1, fromOne_unchecked hM this.2.2]

end Gsb
