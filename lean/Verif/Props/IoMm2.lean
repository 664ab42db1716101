import Verif.Props.IoMm
/-
C45 (MatrixMarket files written and read back), C46 (choosing the reader by the file name), C57 and C58
(malformed MatrixMarket files).
-/
namespace Gsb
variable {T : Type}

/-! ### What is printed -/

theorem digit_ok {k : Nat} (h : k < 10) : isDigit (UInt8.ofNat (48 + k)) = true ∧ (UInt8.ofNat (48 + k)).toNat - 48 = k := by
  have : k = 0 ∨ k = 1 ∨ k = 2 ∨ k = 3 ∨ k = 4 ∨ k = 5 ∨ k = 6 ∨ k = 7 ∨ k = 8 ∨ k = 9 := by omega
  rcases this with rfl | rfl | rfl | rfl | rfl | rfl | rfl | rfl | rfl | rfl <;> decide

theorem decVal_snoc (d : Bytes) (b : UInt8) : decVal (d ++ [b]) = 10 * decVal d + (b.toNat - 48) := by
  simp [decVal, List.foldl_append]

/-- `%lu` prints the digits of the number. -/
theorem printLu_unsigned (n : Nat) : Unsigned (printLu n) n := by
  induction n using Nat.strongRecOn with
  | _ n ih =>
    rw [printLu]
    split
    · rename_i h
      obtain ⟨h1, h2⟩ := digit_ok h
      refine ⟨by simp, by intro b hb; rw [List.mem_singleton] at hb; subst hb; exact h1, ?_⟩
      have := decVal_snoc [] (UInt8.ofNat (48 + n))
      rw [List.nil_append] at this
      rw [this, h2]; simp [decVal]
    · obtain ⟨h1, h2⟩ := digit_ok (Nat.mod_lt n (show 0 < 10 by decide))
      obtain ⟨g1, g2, g3⟩ := ih (n / 10) (by omega)
      refine ⟨by simp, ?_, ?_⟩
      · intro b hb
        rw [List.mem_append] at hb
        rcases hb with hb | hb
        · exact g2 b hb
        · simp only [List.mem_singleton] at hb; subst hb; exact h1
      · rw [decVal_snoc, h2, g3]; omega

theorem printLu_numeral (n : Nat) : Numeral (printLu n) n := (printLu_unsigned n).numeral

theorem printPadded_digits (k : Nat) : ∀ n, Digits (printPadded k n) := by
  induction k with
  | zero => intro n b hb; cases hb
  | succ k ih =>
    intro n b hb
    rw [printPadded, List.mem_append] at hb
    rcases hb with hb | hb
    · exact ih _ b hb
    · simp only [List.mem_singleton] at hb; subst hb; exact (digit_ok (Nat.mod_lt n (show 0 < 10 by decide))).1

/-- What `%f` prints, as a decimal number. -/
def Fixed6.dec (x : Fixed6) : DecText := ⟨if x.neg then chars "-" else [], printLu x.int, some (printPadded 6 x.micro), none⟩

theorem Fixed6.dec_text (x : Fixed6) : x.dec.text = printF x := by
  simp [Fixed6.dec, DecText.text, fracText, expText, printF]

theorem Fixed6.dec_ok (x : Fixed6) : x.dec.Ok where
  sign := by unfold Fixed6.dec SignText; cases x.neg <;> simp
  int := (printLu_unsigned x.int).2.1
  frac := by intro d hd; cases hd; exact printPadded_digits 6 _
  some_digit := .inl (printLu_unsigned x.int).1
  exp := by intro e s d hd; cases hd

/-- The line of an entry, as a line of the format. -/
def lineOf (fmt : T → Fixed6) (e : Ent T) : MmLine :=
  ⟨[], printLu (e.row + 1), chars " ", printLu (e.col + 1), chars " ", (fmt e.val).dec, [], e.row + 1, e.col + 1⟩

theorem blank_space : Blank (chars " ") := by unfold Blank; decide +kernel

theorem blank_nil : Blank [] := by intro b hb; cases hb

theorem lineOf_ok (fmt : T → Fixed6) {e : Ent T} {rows columns : Nat} (hr : e.row < rows) (hc : e.col < columns) :
    (lineOf fmt e).Ok rows columns where
  b0 := blank_nil
  b1 := ⟨blank_space, by simp [lineOf, chars]⟩
  b2 := ⟨blank_space, by simp [lineOf, chars]⟩
  b3 := blank_nil
  rowText := printLu_numeral _
  colText := printLu_numeral _
  val := Fixed6.dec_ok _
  row := ⟨Nat.succ_pos _, hr⟩
  col := ⟨Nat.succ_pos _, hc⟩

theorem mmEntryLine_eq (fmt : T → Fixed6) {e : Ent T} (hr : e.row + 1 < 2 ^ 64) (hc : e.col + 1 < 2 ^ 64) :
    mmEntryLine fmt e = (lineOf fmt e).text ++ [nl] := by
  unfold mmEntryLine
  rw [Nat.mod_eq_of_lt hr, Nat.mod_eq_of_lt hc, MmLine.text]
  simp only [lineOf, Fixed6.dec_text, List.nil_append, List.append_nil]
  rfl

theorem flatMap_joinLines (ls : List Bytes) :
    ls.flatMap (fun l => l ++ [nl]) = joinLines ls (if ls = [] then [] else [nl]) := by
  induction ls with
  | nil => rfl
  | cons l ls ih =>
    cases ls with
    | nil => simp [joinLines]
    | cons l' ls => rw [List.flatMap_cons, ih, joinLines]; simp

/-- `n` survives `(int)` and `(IT)`: it fits an `int`, or the index type has 32 bits. -/
def FitsInt (M n : Nat) : Prop := n < 2 ^ 31 ∧ n < M ∨ M = 2 ^ 32 ∧ n < 2 ^ 32

theorem toIdx_toInt32 {M n : Nat} (h : FitsInt M n) : toIdx M (toInt32 n) = n := by
  rcases h with ⟨h, h'⟩ | ⟨rfl, h⟩
  · rw [toInt32_nat h, toIdx_nat h']
  · unfold toInt32 toIdx
    rw [Nat.mod_eq_of_lt h]
    split <;> omega

theorem printD_int (n : Nat) : IntText (printD (toInt32 n)) (toInt32 n) := by
  have hlt : n % 2 ^ 32 < 2 ^ 32 := Nat.mod_lt _ (by decide)
  unfold printD
  by_cases h : toInt32 n < 0
  · rw [if_pos h]
    refine .inr ⟨printLu (toInt32 n).natAbs, (toInt32 n).natAbs, rfl, printLu_unsigned _, ?_, by omega⟩
    revert h; unfold toInt32; split <;> intro h <;> omega
  · rw [if_neg h]
    refine .inl ⟨(toInt32 n).natAbs, printLu_numeral _, ?_, by omega⟩
    revert h; unfold toInt32; split <;> intro h <;> omega

/-- The banner the writer prints. -/
abbrev mmBanner : Bytes := chars "%%MatrixMarket matrix coordinate real general"

theorem mmBanner_ok : BannerOk mmBanner (chars "real") (chars "general") where
  line := by unfold LineOk; decide +kernel
  words := ⟨chars "matrix", chars "coordinate", chars "real", chars "general", by decide +kernel⟩
  field := .inl rfl
  symmetry := .inl rfl

theorem printLu_bytes (n : Nat) : nl ∉ printLu n ∧ (0 : UInt8) ∉ printLu n := by
  have h := (printLu_unsigned n).2.1
  constructor
  · intro hm; have := h _ hm; revert this; decide
  · intro hm; have := h _ hm; revert this; decide

theorem printLu_length (k : Nat) : ∀ n, n < 10 ^ k → 0 < k → (printLu n).length ≤ k := by
  induction k with
  | zero => intro n _ h; omega
  | succ k ih =>
    intro n hn _
    rw [printLu]
    split
    · simp
    · rename_i h
      rw [List.length_append]
      have hk : 0 < k := by
        rcases Nat.eq_zero_or_pos k with rfl | hk
        · simp at hn; omega
        · exact hk
      have := ih (n / 10) (by rw [Nat.div_lt_iff_lt_mul (by decide)]; rw [Nat.pow_succ] at hn; exact hn) hk
      simp; omega

theorem printD_line (n : Nat) : (printD (toInt32 n)).length ≤ 11 ∧ nl ∉ printD (toInt32 n) ∧ (0 : UInt8) ∉ printD (toInt32 n) := by
  have hlt : n % 2 ^ 32 < 2 ^ 32 := Nat.mod_lt _ (by decide)
  have hab : (toInt32 n).natAbs < 10 ^ 10 := by unfold toInt32; split <;> omega
  have hl := printLu_length 10 _ hab (by decide)
  have hb := printLu_bytes (toInt32 n).natAbs
  unfold printD
  split
  · refine ⟨by simp [chars]; omega, ?_, ?_⟩
    · rw [List.mem_append]; rintro (h | h)
      · revert h; decide
      · exact hb.1 h
    · rw [List.mem_append]; rintro (h | h)
      · revert h; decide
      · exact hb.2 h
  · exact ⟨by omega, hb⟩

theorem sizeOk_written (a b c : Nat) :
    SizeOk [] [] (printD (toInt32 a)) (chars " ") (printD (toInt32 b)) (chars " ") (printD (toInt32 c)) []
      (toInt32 a) (toInt32 b) (toInt32 c) where
  lead := .inl ⟨rfl, by
    obtain ⟨a1, a2, a3⟩ := printD_line a
    obtain ⟨b1, b2, b3⟩ := printD_line b
    obtain ⟨c1, c2, c3⟩ := printD_line c
    refine ⟨?_, ?_, ?_⟩
    · simp [chars]; omega
    · simp only [List.mem_append, not_or]
      exact ⟨⟨⟨⟨⟨⟨by simp, a2⟩, by decide⟩, b2⟩, by decide⟩, c2⟩, by simp⟩
    · simp only [List.mem_append, not_or]
      exact ⟨⟨⟨⟨⟨⟨by simp, a3⟩, by decide⟩, b3⟩, by decide⟩, c3⟩, by simp⟩⟩
  s0 := blank_nil
  s1 := ⟨blank_space, by decide⟩
  s2 := ⟨blank_space, by decide⟩
  s3 := blank_nil
  t0 := printD_int a
  t1 := printD_int b
  t2 := printD_int c

/-- Reading the text `write_mm_COO` prints. -/
theorem readMm_written {ε : Type} [NZ ε T] (M : Nat) (conv : Bytes → T) (fmt : T → Fixed6) (fuel : Nat) (hfuel : 0 < fuel) (fs : FS)
    (name : String) (rows columns : Nat) (es : List ε) (hin : InRange (ents es) rows columns)
    (hrM : rows ≤ M) (hcM : columns ≤ M) (hr : rows < 2 ^ 64) (hc : columns < 2 ^ 64) (hn : FitsInt M es.length)
    (hfs : fs name = some (mmText fmt rows columns es)) :
    ∃ A, readMmCoo M conv fuel fs name = .ok (0, A) ∧ A.rows = some (toIdx M (toInt32 rows)) ∧
      A.columns = some (toIdx M (toInt32 columns)) ∧
      A.ents = .ok ((ents es).map (fun e => ⟨e.row, e.col, conv (printF (fmt e.val))⟩)) := by
  have hbody : es.flatMap (fun e => mmEntryLine fmt (NZ.toEnt e)) =
      joinLines (((ents es).map (lineOf fmt)).map MmLine.text) (if es = [] then [] else [nl]) := by
    have h1 : es.flatMap (fun e => mmEntryLine fmt (NZ.toEnt e)) =
        (((ents es).map (lineOf fmt)).map MmLine.text).flatMap (fun l => l ++ [nl]) := by
      rw [List.flatMap_map, List.flatMap_map, ents, List.flatMap_map]
      refine List.flatMap_congr ?_
      intro e he
      have := hin (NZ.toEnt e) (List.mem_map.2 ⟨e, he, rfl⟩)
      exact mmEntryLine_eq fmt (by omega) (by omega)
    rw [h1, flatMap_joinLines]
    congr 1
    cases es <;> simp [ents]
  have htail : Blank (if es = [] then [] else [nl]) := by
    split
    · exact blank_nil
    · intro b hb; simp only [List.mem_singleton] at hb; subst hb; decide
  have hlines : ∀ l ∈ (ents es).map (lineOf fmt), l.Ok rows columns := by
    intro l hl
    obtain ⟨e, he, rfl⟩ := List.mem_map.1 hl
    exact lineOf_ok fmt (hin e he).1 (hin e he).2
  have hout : ∀ l : List (Ent T), (l.map (lineOf fmt)).flatMap (MmLine.out conv false) =
      l.map (fun e => ⟨e.row, e.col, conv (printF (fmt e.val))⟩) := by
    intro l
    induction l with
    | nil => rfl
    | cons e l ih =>
      rw [List.map_cons, List.flatMap_cons, ih, List.map_cons]
      simp [MmLine.out, MmLine.ent, lineOf, Fixed6.dec_text]
  have hidx := toIdx_toInt32 hn
  obtain ⟨A, h1, h2, h3, h4, -⟩ := mmEntries_spec M conv false (nr := toInt32 rows) (nc := toInt32 columns) (nnz := toInt32 es.length)
    htail hr hc hrM hcM _ hlines ⟨none, none, none⟩ (by rw [hout, hidx, List.length_map, ents, List.length_map])
  obtain ⟨rest, hsz, hskip⟩ := mmReadSize_ok (cs := []) (by intro c hc; cases hc) (sizeOk_written rows columns es.length) hfuel
    (es.flatMap (fun e => mmEntryLine fmt (NZ.toEnt e)))
  refine ⟨A, ?_, h3, h4, by rw [h2, hout]⟩
  unfold readMmCoo
  rw [hfs]
  simp only
  have htext : mmText fmt rows columns es = mmBanner ++ nl :: ([].flatMap (fun c => c ++ [nl]) ++ ([] ++
      (([] ++ printD (toInt32 rows) ++ chars " " ++ printD (toInt32 columns) ++ chars " " ++ printD (toInt32 es.length) ++ []) ++
        nl :: es.flatMap (fun e => mmEntryLine fmt (NZ.toEnt e))))) := by
    have hb : chars "%%MatrixMarket matrix coordinate real general\n" = mmBanner ++ [nl] := by decide +kernel
    have hn' : chars "\n" = [nl] := by decide
    unfold mmText
    rw [hb, hn']
    simp
  rw [htext, mmReadBanner_ok mmBanner_ok]
  simp only [ok_bind]
  rw [if_neg (by simp), if_neg (by decide), hsz]
  simp only [ok_bind]
  rw [if_neg (by simp), if_neg (by decide)]
  rw [← mmEntries_skipWs, hskip, mmEntries_skipWs, hbody, h1]
  rfl

/-- C45: on a disk with room, `write_mm_COO` then `read_mm_COO` restores the dimensions and the
coordinates of all entries in order; each value is what its rendering with six decimals is read as.
The sizes must fit an `int`, or the index type have 32 bits. -/
theorem C45_write_read {ε : Type} [NZ ε T] (M : Nat) (hM : M = 2 ^ 32 ∨ M = 2 ^ 64) (conv : Bytes → T) (fmt : T → Fixed6) (fuel : Nat)
    (hfuel : 0 < fuel) (d : Disk) (fs : FS) (name : String) (rows columns : Nat) (es : List ε)
    (hin : InRange (ents es) rows columns) (hr : FitsInt M rows) (hc : FitsInt M columns) (hn : FitsInt M es.length)
    (hd : d.Works (mmText fmt rows columns es).length name) :
    ∃ fs' A, writeMmCoo fmt d fs name rows columns es = (0, fs') ∧ readMmCoo M conv fuel fs' name = .ok (0, A) ∧
      A.rows = some rows ∧ A.columns = some columns ∧
      A.ents = .ok ((ents es).map (fun e => ⟨e.row, e.col, conv (printF (fmt e.val))⟩)) := by
  have hfs : (fs.set name (d.close ((mmText fmt rows columns es).take d.room))) name = some (mmText fmt rows columns es) := by
    rw [FS.set, if_pos rfl, Disk.close, List.take_take, List.take_of_length_le]
    have := hd.room; have := hd.kept; omega
  have b1 : rows < M ∧ rows < 2 ^ 64 := by rcases hr with ⟨h, h'⟩ | ⟨rfl, h⟩ <;> omega
  have b2 : columns < M ∧ columns < 2 ^ 64 := by rcases hc with ⟨h, h'⟩ | ⟨rfl, h⟩ <;> omega
  obtain ⟨A, h1, h2, h3, h4⟩ := readMm_written M conv fmt fuel hfuel _ name rows columns es hin (Nat.le_of_lt b1.1) (Nat.le_of_lt b2.1)
    b1.2 b2.2 hn hfs
  refine ⟨_, A, ?_, h1, by rw [h2, toIdx_toInt32 hr], by rw [h3, toIdx_toInt32 hc], h4⟩
  unfold writeMmCoo
  rw [if_pos hd.opens]

/-- C45, the limit: with 64-bit indices and 2^31 rows or more (below 2^32) the number of rows read
back is another one, although the return values are 0 and all entries are right. -/
theorem C45_wide {ε : Type} [NZ ε T] (conv : Bytes → T) (fmt : T → Fixed6) (fuel : Nat) (hfuel : 0 < fuel) (d : Disk) (fs : FS)
    (name : String) (rows columns : Nat) (es : List ε) (hin : InRange (ents es) rows columns) (hr : 2 ^ 31 ≤ rows) (hr' : rows < 2 ^ 32)
    (hc : columns < 2 ^ 31) (hn : es.length < 2 ^ 31) (hd : d.Works (mmText fmt rows columns es).length name) :
    ∃ fs' A, writeMmCoo fmt d fs name rows columns es = (0, fs') ∧ readMmCoo (2 ^ 64) conv fuel fs' name = .ok (0, A) ∧
      A.rows = some (rows + 2 ^ 64 - 2 ^ 32) ∧
      A.ents = .ok ((ents es).map (fun e => ⟨e.row, e.col, conv (printF (fmt e.val))⟩)) := by
  have hfs : (fs.set name (d.close ((mmText fmt rows columns es).take d.room))) name = some (mmText fmt rows columns es) := by
    rw [FS.set, if_pos rfl, Disk.close, List.take_take, List.take_of_length_le]
    have := hd.room; have := hd.kept; omega
  obtain ⟨A, h1, h2, h3, h4⟩ := readMm_written (2 ^ 64) conv fmt fuel hfuel _ name rows columns es hin (by omega) (by omega)
    (by omega) (by omega) (.inl ⟨hn, by omega⟩) hfs
  refine ⟨_, A, ?_, h1, ?_, h4⟩
  · unfold writeMmCoo
    rw [if_pos hd.opens]
  · have : toIdx (2 ^ 64) (toInt32 rows) = rows + 2 ^ 64 - 2 ^ 32 := by
      unfold toIdx toInt32
      rw [Nat.mod_eq_of_lt hr', if_neg (by omega)]
      omega
    rw [h2, this]

/-- C45, failures: whatever the disk does — full at any byte, or cut at any byte by a failing close or
a crash — `write_mm_COO` returns 0 once the file could be opened, and leaves a prefix of the text. -/
theorem C45_failure_unnoticed {ε : Type} [NZ ε T] (fmt : T → Fixed6) (d : Disk) (fs : FS) (name : String) (rows columns : Nat)
    (es : List ε) (ho : d.opens name = true) :
    writeMmCoo fmt d fs name rows columns es =
      (0, fs.set name ((mmText fmt rows columns es).take (min d.kept d.room))) := by
  unfold writeMmCoo
  rw [if_pos ho, Disk.close, List.take_take]

/-- C45_write_read applies: 3000000000 rows with 32-bit indices (the size line then has a negative
number), three entries. -/
example (conv : Bytes → Int) (fmt : Int → Fixed6) (L : Nat)
    (hL : (mmText fmt 3000000000 2 [(⟨2999999999, 1, 7⟩ : Ent Int), ⟨0, 0, -2⟩, ⟨0, 0, 5⟩]).length ≤ L) : ∃ fs' A,
    writeMmCoo fmt ⟨fun _ => true, L, L⟩ (fun _ => none) "a.mtx" 3000000000 2 [(⟨2999999999, 1, 7⟩ : Ent Int), ⟨0, 0, -2⟩, ⟨0, 0, 5⟩] = (0, fs') ∧
    readMmCoo (2 ^ 32) conv 1 fs' "a.mtx" = .ok (0, A) ∧ A.rows = some 3000000000 ∧ A.columns = some 2 ∧
    A.ents = .ok [⟨2999999999, 1, conv (printF (fmt 7))⟩, ⟨0, 0, conv (printF (fmt (-2)))⟩, ⟨0, 0, conv (printF (fmt 5))⟩] :=
  C45_write_read (2 ^ 32) (.inl rfl) conv fmt 1 (by decide) ⟨fun _ => true, L, L⟩ (fun _ => none) "a.mtx" 3000000000 2 _ (by decide)
    (.inr ⟨rfl, by decide⟩) (.inr ⟨rfl, by decide⟩) (.inr ⟨rfl, by decide⟩) ⟨rfl, hL, hL⟩

/-! ### C46 -/

/-- C46: `string_ends_with` is exactly the suffix test. -/
theorem C46_suffix (str suffix : List Char) : stringEndsWith str suffix = true ↔ ∃ p, str = p ++ suffix := by
  unfold stringEndsWith
  simp only [Bool.and_eq_true, decide_eq_true_eq, beq_iff_eq]
  constructor
  · rintro ⟨h1, h2⟩
    refine ⟨str.take (str.length - suffix.length), ?_⟩
    conv_lhs => rw [← List.take_append_drop (str.length - suffix.length) str]
    rw [h2]
  · rintro ⟨p, rfl⟩
    simp

/-- C46: a name ending in `.bin` is read by the binary reader. -/
theorem C46_bin (w : Nat) (cv : Codec T) (conv : Bytes → T) (fuel : Nat) (fs : FS) (name : String)
    (h : ∃ p, name.toList = p ++ ".bin".toList) : readCoo w cv conv fuel fs name = readBinCoo w cv fs name := by
  unfold readCoo
  rw [if_pos ((C46_suffix _ _).2 h)]

/-- C46: a name ending in `.mtx` is read by the MatrixMarket reader. -/
theorem C46_mtx (w : Nat) (cv : Codec T) (conv : Bytes → T) (fuel : Nat) (fs : FS) (name : String)
    (h : ∃ p, name.toList = p ++ ".mtx".toList) : readCoo w cv conv fuel fs name = readMmCoo (256 ^ w) conv fuel fs name := by
  unfold readCoo
  rw [if_neg, if_pos ((C46_suffix _ _).2 h)]
  intro h'
  obtain ⟨p, hp⟩ := h
  obtain ⟨q, hq⟩ := (C46_suffix _ _).1 h'
  rw [hp] at hq
  have := (List.append_inj' hq rfl).2
  revert this
  decide

/-- C46: with any other name nothing is read and the result is -1. -/
theorem C46_other (w : Nat) (cv : Codec T) (conv : Bytes → T) (fuel : Nat) (fs : FS) (name : String)
    (h1 : ¬ ∃ p, name.toList = p ++ ".bin".toList) (h2 : ¬ ∃ p, name.toList = p ++ ".mtx".toList) :
    readCoo w cv conv fuel fs name = .ok (-1, CooA.fresh) := by
  unfold readCoo
  rw [if_neg (fun h => h1 ((C46_suffix _ _).1 h)), if_neg (fun h => h2 ((C46_suffix _ _).1 h))]

example : (∃ p, "dir.mtx/a.bin".toList = p ++ ".bin".toList) ∧ (∃ p, "x.bin.mtx".toList = p ++ ".mtx".toList) ∧
    (¬ ∃ p, "a.MTX".toList = p ++ ".bin".toList) ∧ (¬ ∃ p, "a.MTX".toList = p ++ ".mtx".toList) := by
  refine ⟨⟨"dir.mtx/a".toList, by decide⟩, ⟨"x.bin".toList, by decide⟩, ?_, ?_⟩
  · rw [← C46_suffix]; decide
  · rw [← C46_suffix]; decide

/-! ### Malformed files -/

/-- C57: if one of the five words of the banner line has 64 characters or more, reading the banner
writes beyond the end of a buffer (the words before it being short). -/
theorem C57_long_word (M : Nat) (conv : Bytes → T) (fuel : Nat) (fs : FS) (name : String) (banner rest : Bytes) (hl : LineOk banner)
    (pre : List Bytes) (w : Bytes) (post : List Bytes) (hw : fields banner = pre ++ w :: post) (hpre : pre.length < 5)
    (hshort : ∀ u ∈ pre, u.length < 64) (hlong : 64 ≤ w.length) (hfs : fs name = some (banner ++ nl :: rest)) :
    readMmCoo M conv fuel fs name = .error .oob := by
  have key : ∀ (n : Nat) (pre : List Bytes) (s : Bytes), fields s = pre ++ w :: post → pre.length < n →
      (∀ u ∈ pre, u.length < 64) → scanWords n s = .error .oob := by
    intro n
    induction n with
    | zero => intro pre s _ h; omega
    | succ n ih =>
      intro pre s hf hn hp
      unfold scanWords
      rw [← fields_skipWs s] at hf
      cases h : skipWs s with
      | nil => rw [h] at hf; simp [fields] at hf
      | cons b t =>
        have hb : isBlank b = false := dropWhile_head h
        rw [h, fields_word hb] at hf
        simp only
        cases pre with
        | nil =>
          rw [List.nil_append, List.cons.injEq] at hf
          rw [if_neg (by rw [hf.1]; omega)]
        | cons u pre =>
          rw [List.cons_append, List.cons.injEq] at hf
          rw [if_pos (by rw [hf.1]; exact hp u (by simp)), ih pre _ hf.2 (by simpa using hn) (fun u hu => hp u (by simp [hu]))]
          rfl
  unfold readMmCoo
  rw [hfs]
  simp only
  unfold mmReadBanner
  rw [fgetsLine_line hl]
  simp only
  rw [cstr_line hl, key 5 pre _ (by rw [fields_append_nl]; exact hw) hpre hshort]
  rfl

/-- What neither is white space nor can begin an integer. -/
def NotNumber (b : UInt8) : Prop := isBlank b = false ∧ isDigit b = false ∧ b ≠ 43 ∧ b ≠ 45

theorem scanThreeD_stuck {b : UInt8} {t a : Bytes} (ha : Blank a) (hb : NotNumber b) (v : Int × Int × Int) :
    scanThreeD v (a ++ b :: t) = .ok (0, v, b :: t) := by
  obtain ⟨h1, h2, h3, h4⟩ := hb
  have : scanInt (a ++ b :: t) = .fail (b :: t) := by
    unfold scanInt
    rw [skipWs_blank _ ha, skipWs_stop (stop_cons.2 h1)]
    simp [scanSign, h3, h4, h2]
  unfold scanThreeD scanD
  rw [this]
  rfl

/-- C58: a file with a valid banner whose next line that is not a comment is not a size line (its first
character is not a digit, sign or blank, and neither is that of the line after it) keeps the reader in
its loop for ever: no number of turns is enough. -/
theorem C58_loops_forever (M : Nat) (conv : Bytes → T) (fs : FS) (name : String) (banner field symmetry : Bytes)
    (hb : BannerOk banner field symmetry) (cs : List Bytes) (hcs : ∀ c ∈ cs, LineOk c ∧ c.head? = some 37)
    (line : Bytes) (hline : LineOk line) (b : UInt8) (t : Bytes) (hbt : line = b :: t) (hb37 : b ≠ 37) (hbn : NotNumber b)
    (b' : UInt8) (t' : Bytes) (hbn' : NotNumber b')
    (hfs : fs name = some (banner ++ nl :: (cs.flatMap (fun c => c ++ [nl]) ++ (line ++ nl :: (b' :: t'))))) :
    ∀ fuel, readMmCoo M conv fuel fs name = .error .budget := by
  have stuck : ∀ fuel v, sizeLoop fuel v (b' :: t') = .error .budget := by
    intro fuel
    induction fuel with
    | zero => intro v; rfl
    | succ f ih =>
      intro v
      have := scanThreeD_stuck (a := []) (t := t') blank_nil hbn' v
      rw [List.nil_append] at this
      unfold sizeLoop
      rw [this]
      simp only [ok_bind]
      rw [if_neg (by decide), if_neg (by decide)]
      exact ih v
  intro fuel
  unfold readMmCoo
  rw [hfs]
  simp only
  rw [mmReadBanner_ok hb]
  simp only [ok_bind]
  rw [if_neg (by simp), if_neg (by rcases hb.field with h | h | h <;> rw [h] <;> decide)]
  unfold mmReadSize
  rw [skipComments_spec hline (by rw [hbt]; simpa using hb37) cs hcs _ (by
    have : cs.length ≤ (cs.flatMap (fun c => c ++ [nl])).length := by
      clear hcs hfs
      induction cs with
      | nil => simp
      | cons c cs ih => rw [List.flatMap_cons, List.length_append]; simp only [List.length_cons, List.length_append, List.length_nil]; omega
    rw [List.length_append]; omega)]
  simp only [ok_bind]
  have h0 := scanThreeD_stuck (a := []) (t := t ++ [nl]) blank_nil hbn (0, 0, 0)
  rw [List.nil_append, ← List.cons_append, ← hbt] at h0
  rw [cstr_line hline, h0]
  simp only [ok_bind]
  rw [if_neg (by decide), stuck]
  rfl

/-- C57 applies: a long symmetry field. -/
example (conv : Bytes → Int) : readMmCoo (2 ^ 32) conv 5 (fun _ => some (chars "%%MatrixMarket matrix coordinate real " ++ List.replicate 64 120 ++ nl :: chars "1 1 0\n")) "a.mtx" = .error .oob :=
  C57_long_word (2 ^ 32) conv 5 _ "a.mtx" (chars "%%MatrixMarket matrix coordinate real " ++ List.replicate 64 120) (chars "1 1 0\n")
    (by unfold LineOk; decide +kernel) [chars "%%MatrixMarket", chars "matrix", chars "coordinate", chars "real"] (List.replicate 64 120) []
    (by decide +kernel) (by decide) (by decide +kernel) (by decide) rfl

/-- C58 applies: a file with names instead of sizes. -/
example (conv : Bytes → Int) (fuel : Nat) : readMmCoo (2 ^ 32) conv fuel (fun _ => some (mmBanner ++ nl :: (chars "% c\nrows\nx 3 3 1\n1 1 2\n"))) "a.mtx" = .error .budget :=
  C58_loops_forever (2 ^ 32) conv _ "a.mtx" mmBanner _ _ mmBanner_ok [chars "% c"] (by simp only [LineOk]; decide +kernel) (chars "rows")
    (by unfold LineOk; decide +kernel) 114 (chars "ows") (by decide) (by decide) (by unfold NotNumber; decide) 120 (chars " 3 3 1\n1 1 2\n") (by unfold NotNumber; decide)
    (by decide +kernel) fuel

/-! ### Indices are not checked -/

/-- What becomes of an index `k` (from one) in a file: 0 becomes the largest index. -/
def unchecked (M k : Nat) : Nat := if k = 0 then M - 1 else (k - 1) % M

theorem fromOne_unchecked {M k : Nat} (hM : M = 2 ^ 32 ∨ M = 2 ^ 64) (hk : k < 2 ^ 64) : fromOne M k = unchecked M k := by
  unfold fromOne unchecked
  split
  · rename_i h; subst h; rcases hM with rfl | rfl <;> decide
  · have : (k + (2 ^ 64 - 1)) % 2 ^ 64 = k - 1 := by omega
    rw [this]

/-- C59: whatever indices the lines of a general file have — zero, or beyond the size line — it is read
with return value 0 and they are stored unchecked, 0 as the largest value of the index type. -/
theorem C59_unchecked (M : Nat) (hM : M = 2 ^ 32 ∨ M = 2 ^ 64) (conv : Bytes → T) (fuel : Nat) (hfuel : 0 < fuel) (fs : FS)
    (name : String) {F : MmFile} (hF : F.HeadOk) (hlines : ∀ l ∈ F.lines, l.Syntax ∧ l.row < 2 ^ 64 ∧ l.col < 2 ^ 64)
    (htail : Blank F.tail) (hcount : F.lines.length = F.nnz) (hf : F.field = chars "real" ∨ F.field = chars "integer")
    (hs : F.symmetry = chars "general") (hr : F.rows < 2 ^ 31) (hc : F.columns < 2 ^ 31) (hn : F.nnz < 2 ^ 31)
    (hfs : fs name = some F.text) :
    ∃ A, readMmCoo M conv fuel fs name = .ok (0, A) ∧ A.rows = some F.rows ∧ A.columns = some F.columns ∧
      A.ents = .ok (F.lines.map (fun l => ⟨unchecked M l.row, unchecked M l.col, conv l.val.text⟩)) := by
  have hM' : 2 ^ 31 ≤ M := by rcases hM with rfl | rfl <;> decide
  have hraw : ∀ ls : List MmLine, (∀ l ∈ ls, l.row < 2 ^ 64 ∧ l.col < 2 ^ 64) →
      ls.flatMap (MmLine.raw M conv false) = ls.map (fun l => ⟨unchecked M l.row, unchecked M l.col, conv l.val.text⟩) := by
    intro ls
    induction ls with
    | nil => intro _; rfl
    | cons l ls ih =>
      intro h
      have := h l (by simp)
      rw [List.flatMap_cons, ih (fun l hl => h l (by simp [hl])), MmLine.raw, fromOne_unchecked hM this.1, fromOne_unchecked hM this.2]
      rfl
  have hr' := hraw F.lines (fun l hl => (hlines l hl).2)
  obtain ⟨A, h1, h2, h3, h4, -⟩ := mmEntries_raw M conv false (nr := F.rows) (nc := F.columns) (nnz := F.nnz) htail F.lines hlines
    ⟨none, none, none⟩ (by rw [hr', toIdx_nat (by omega), List.length_map]; omega)
  refine ⟨A, ?_, by rw [h3, toIdx_nat (by omega)], by rw [h4, toIdx_nat (by omega)], by rw [h2, hr']⟩
  rw [readMm_body M conv fuel hfuel fs name hF (by rcases hf with h | h <;> simp [h]) (.inl hs) hr hc hn hfs, MmFile.body, h1]
  rfl

/-- C59 applies: the row of an entry is 0. -/
example (conv : Bytes → Int) : ∃ A,
    readMmCoo (2 ^ 32) conv 1 (fun _ => some (chars "%%MatrixMarket matrix coordinate real general\n1 1 1\n0 9 5\n")) "a.mtx" = .ok (0, A) ∧
    A.rows = some 1 ∧ A.columns = some 1 ∧ A.ents = .ok [⟨4294967295, 8, conv (chars "5")⟩] :=
  C59_unchecked (2 ^ 32) (.inl rfl) conv 1 (by decide) _ "a.mtx"
    (F := ⟨mmBanner, chars "real", chars "general", [], [], [], chars "1", chars " ", chars "1", chars " ", chars "1", [], 1, 1, 1,
      [⟨[], chars "0", chars " ", chars "9", chars " ", ⟨[], chars "5", none, none⟩, [], 0, 9⟩], [nl]⟩)
    ⟨mmBanner_ok.line, mmBanner_ok.words, by simp, .inl rfl, by unfold LineOk; simp only [MmFile.sizeLine]; decide +kernel, blank_nil,
      ⟨blank_space, by decide⟩, ⟨blank_space, by decide⟩, blank_nil, by simp only [Numeral, Unsigned, Digits]; decide +kernel,
      by simp only [Numeral, Unsigned, Digits]; decide +kernel, by simp only [Numeral, Unsigned, Digits]; decide +kernel⟩
    (by
      intro l hl
      simp only [List.mem_singleton] at hl
      subst hl
      refine ⟨⟨blank_nil, ⟨blank_space, by decide⟩, ⟨blank_space, by decide⟩, blank_nil, ?_, ?_, ⟨.inl rfl, ?_, by simp, .inl (by decide), by simp⟩⟩,
        by decide, by decide⟩
      all_goals simp only [Numeral, Unsigned, Digits]; decide +kernel)
    (by simp only [Blank]; decide +kernel) rfl (.inl rfl) rfl (by decide) (by decide) (by decide) (by decide +kernel)

end Gsb
