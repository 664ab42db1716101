import Verif.Cases.Blocks
import Verif.Props.IoBin
import Verif.Props.IoBin2
import Verif.Props.IoBlocked
import Verif.Props.IoCgbr
import Verif.Props.IoMm
import Verif.Props.IoMm2
import Verif.Props.IoMm3
import Verif.Props.IoOpen
import Verif.Props.Drivers
/-
Concrete cases for the files: 32-bit indices, one-byte values.
-/
namespace Gsb

open scoped UInt8.CommRing

/-- 4 rows, 3 columns. -/
def exF : List (Ent UInt8) := [⟨3, 0, 2⟩, ⟨1, 2, 7⟩, ⟨1, 1, 5⟩, ⟨0, 2, 255⟩]

/-- The same as elements. -/
def exG : List (Element UInt8) := exF.map fun e => ⟨e.row, e.col, e.val, 0⟩

/-- A disk on which everything can be opened and there is room for 1000 bytes. -/
def exDisk : Disk := ⟨fun _ => true, 1000, 1000⟩

/-- A disk with room for 40 bytes, which keeps 30 of them. -/
def exTight : Disk := ⟨fun _ => true, 40, 30⟩

def exNone : FS := fun _ => none

/-! ### Binary files -/

example := C35_bin_roundtrip (w := 4) (by decide) byteCodec_exact exDisk exNone "a.bin" 4 3 exF (by decide) (by decide) (by decide) (by decide)
  ⟨rfl, by decide, by decide⟩
example := C36_truncated_rejected (w := 4) (by decide) byteCodec_exact (exNone.set "a.bin" ((binFile 4 byteCodec 4 3 exF).take 20)) "a.bin" 4 3 exF
  (by decide) (by decide) (by decide) 20 (by decide) rfl
/-- 2^31 entries. -/
example := C36_counter_wraps (w := 4) (by decide) byteCodec_exact "a.bin" 4 3 (List.replicate (2 ^ 31) ⟨1, 2, 7⟩)
  (by decide) (by decide) (by rw [List.length_replicate]; decide) (by rw [List.length_replicate]; decide)
example := C37_write_failure_unreported (w := 4) (by decide) byteCodec_exact exTight exNone "a.bin" 4 3 exF rfl
example := C37_reader_notices (w := 4) (by decide) byteCodec_exact exTight exNone "a.bin" 4 3 exF (by decide) (by decide) (by decide) rfl (by decide)
example := C37_array_short_write (byteCodec_exact) exTight exNone "a" [1, 2, 3] rfl
example := C38_read_any (c := idx 4) (by decide) false (exNone.set "a" [1, 2, 3, 4, 5, 6, 7, 8, 9]) "a" _ rfl (.inl (by decide))
example := C38_array_roundtrip byteCodec_exact false exDisk exNone "a" [1, 2, 3] (fun _ _ => trivial) (.inl (by decide)) ⟨rfl, by decide, by decide⟩

/-- Three files with the rows, columns and values of `exF`. -/
def exThree : FS :=
  ((exNone.set "r" (packed (idx 4) (exF.map Ent.row))).set "c" (packed (idx 4) (exF.map Ent.col))).set "v" (packed byteCodec (exF.map Ent.val))

example := C39_coo_reader (w := 4) (by decide) byteCodec_exact exThree "r" "c" "v" exF ⟨rfl, rfl, rfl⟩ (by decide) (by decide)
example := C39_generic_reader (w := 4) (by decide) byteCodec_exact exThree "r" "c" "v" exF ⟨rfl, rfl, rfl⟩ (by decide) (by decide)
example := C39_generic_accepts_anything (w := 4) (by decide) byteCodec_exact (((exNone.set "r" [1, 2]).set "c" []).set "v" [1, 2, 3]) "r" "c" "v" _ _ _
  rfl rfl rfl
example := C39_roundtrip (w := 4) (by decide) byteCodec_exact exDisk exNone "r" "c" "v" (by decide) (by decide) (by decide) exF
  ⟨rfl, by decide, by decide⟩ ⟨rfl, by decide, by decide⟩ ⟨rfl, by decide, by decide⟩ (by decide) (by decide)
example := C42_read_csr (w := 4) (by decide) byteCodec_exact (exNone.set "a.bin" (binFile 4 byteCodec 4 3 (sortTriplets exF))) "a.bin" 4 3 exF
  (by decide) (by decide) (by decide) (by decide) rfl
example := C42_truncation_accepted (w := 4) (by decide) byteCodec_exact (exNone.set "a.bin" ((binFile 4 byteCodec 4 3 exF).take 30)) "a.bin" 4 3 exF
  (by decide) (by decide) (by decide) (by decide) 30 (by decide) (by decide) rfl

/-! ### Blocked files -/

example := C40_csbr byteCodec_exact 8 4 3 exG _ _ _ _ exR exC (by decide) (by decide) (by decide) (by decide) (by decide) (by decide) (by decide)
  (by decide) (by decide) exDisk "a.block" ⟨rfl, by decide, by decide⟩
example := C40_csbr2 byteCodec_exact 4 3 exG _ _ _ _ exR exC (by decide) (by decide) (by decide) (by decide) (by decide) (by decide)
  (by decide) (by decide) exDisk "a.block" ⟨rfl, by decide, by decide⟩
/-- A file made for other numbers of columns. -/
example := C40_header_checked (w := 4) (by decide) byteCodec 256 8 exChoose true
  (exNone.set "a.block" (blockFile 4 byteCodec 4 5 2 2 1 [(0, ⟨0, 0, 7⟩)])) "a.block" 4 5 2 2 1 _ _ _ 2 2 4 3 exR exC rfl (by decide) (by decide)
  (by decide) (by decide) (by decide) (by decide) (.inr (.inr (.inr (by decide))))
example := C55_csbr_out_of_bounds byteCodec_exact
  (exNone.set "a.block" (blockFile 8 byteCodec 4 3 2 2 2 ([(⟨0, 0, 7, 0⟩ : Element UInt8), ⟨3, 2, 5, 3⟩].map recOf))) "a.block" 4 3 2 2 2
  ⟨0, 0, 7, 0⟩ [⟨3, 2, 5, 3⟩] _ _ exR exC (by decide) (by decide) (by decide) (by decide) (by decide) (by decide) (by decide) (by decide)
  (by decide) (by decide) rfl
example := C41_cgbr_drops_first (w := 4) (by decide) byteCodec_exact (2 ^ 16 - 1) 8 4 3 exChoose true exG _ _ _ _ exR exC exR_small exC_small
  (fun _ _ _ h1 h2 _ _ => small_square h1 h2) (.inr (by decide)) (by decide) (by decide) (by decide) (by decide) (by decide) (by decide)
  (by decide) (by decide) (by decide) exDisk "a.block" ⟨rfl, by decide, by decide⟩ exNone
example := C41_missing_term exG ⟨1, 1, 5, 0⟩ [⟨3, 0, 2, 0⟩, ⟨1, 2, 7, 0⟩, ⟨0, 2, 255, 0⟩] (by decide) (fun _ => 1) (fun _ => 2) 1
example := C41_single_uninit (w := 4) (by decide) byteCodec_exact 256 8 4 3 2 2 exChoose true ⟨3, 2, 5, 3⟩ _ _ exR exC (by decide) (by decide)
  (by decide) (by decide) ⟨by decide, by decide, by decide⟩ (exNone.set "a.block" (blockFile 4 byteCodec 4 3 2 2 1 ([(⟨3, 2, 5, 3⟩ : Element UInt8)].map recOf))) "a.block" rfl

/-! ### Matrix Market files -/

/-- The sizes say three entries, two follow. -/
def exShort : MmFile := { exFile "general" with nnzText := chars "3", nnz := 3 }

theorem exShort_head : exShort.HeadOk := by
  have h := exFile_head "general" (.inl rfl)
  refine ⟨h.banner_line, h.banner_fields, h.comments, h.lead, ?_, h.s0, h.s1, h.s2, h.s3, h.rowsText, h.columnsText, ?_⟩
  · unfold LineOk; simp only [exShort, exFile, MmFile.sizeLine]; decide +kernel
  · simp only [exShort, Numeral, Unsigned, Digits]; decide +kernel

example := C43_truncated_unnoticed (2 ^ 32) (by decide) (fun t => (t.length : Int)) 1 (by decide) (fun _ => some exShort.text) "a.mtx" exShort_head
  (exFile_lines "general") (by simp only [exShort, exFile, Blank]; decide +kernel) (by decide) (.inl rfl) rfl (by decide) (by decide) (by decide) rfl
example := C43_symmetric_is (2 ^ 32) (by decide) (fun t => (t.length : Int)) 1 (by decide) (fun _ => some (exFile "symmetric").text) "a.mtx"
  (exFile_ok "symmetric" (.inr (.inl rfl))) (.inl rfl) rfl (by decide) (by decide) (by decide) rfl
example := C44_read_as_general (2 ^ 32) (by decide) (fun t => (t.length : Int)) 1 (by decide) (fun _ => some exSkew.text) "a.mtx" exSkew_ok (.inl rfl)
  (.inl rfl) (by decide) (by decide) (by decide) rfl

/-- The sizes (one of them with a plus sign) say one entry, two follow. -/
def exMany (kind : String) : MmFile := { exFile kind with nnzText := chars "+1", nnz := 1 }

theorem exMany_head (kind : String) (hk : kind = "general" ∨ kind = "symmetric") : (exMany kind).HeadOk := by
  have h := exFile_head kind (hk.imp_right .inl)
  refine ⟨h.banner_line, h.banner_fields, h.comments, h.lead, ?_, h.s0, h.s1, h.s2, h.s3, h.rowsText, h.columnsText, ?_⟩
  · unfold LineOk; simp only [exMany, exFile, MmFile.sizeLine]; decide +kernel
  · simp only [exMany, Numeral, Unsigned, Digits]; decide +kernel

example := C74_general (2 ^ 32) (by decide) (fun t => (t.length : Int)) 1 (by decide) (fun _ => some (exMany "general").text) "a.mtx"
  (exMany_head _ (.inl rfl)) (exFile_lines "general") (by simp only [exMany, exFile, Blank]; decide +kernel) (.inl rfl) rfl
  (by decide) (by decide) (by decide) rfl
example := C74_symmetric (2 ^ 32) (by decide) (fun t => (t.length : Int)) 1 (by decide) (fun _ => some (exMany "symmetric").text) "a.mtx"
  (exMany_head _ (.inr rfl)) (exFile_lines "symmetric") (by simp only [exMany, exFile, Blank]; decide +kernel) (.inl rfl) rfl
  (by decide) (by decide) (by decide) rfl (.inl rfl)

/-- The sizes say 2^30 entries. -/
def exHuge : MmFile := { exFile "symmetric" with nnzText := chars "1073741824", nnz := 1073741824 }

theorem exHuge_head : exHuge.HeadOk := by
  have h := exFile_head "symmetric" (.inr (.inl rfl))
  refine ⟨h.banner_line, h.banner_fields, h.comments, h.lead, ?_, h.s0, h.s1, h.s2, h.s3, h.rowsText, h.columnsText, ?_⟩
  · unfold LineOk; simp only [exHuge, exFile, MmFile.sizeLine]; decide +kernel
  · simp only [exHuge, Numeral, Unsigned, Digits]; decide +kernel

example := C74_symmetric_overflow (2 ^ 32) (fun t => (t.length : Int)) 1 (by decide) (fun _ => some exHuge.text) "a.mtx"
  exHuge_head (.inl rfl) rfl (by decide) (by decide) (by decide) (by decide) rfl

/-- The number of entries is missing from the size line: `9 9`.  The 9-by-9 matrix with three entries is
read as a 1-by-2 matrix, and of its entries (1,2), (3,3), (4,9) the last two are kept. -/
example (conv : Bytes → Int) : ∃ A,
    readMmCoo (2 ^ 32) conv 1 (fun _ => some (chars "%%MatrixMarket matrix coordinate real general\n9 9\n1 2 5\n3 3 7\n4 9 8\n")) "a.mtx" = .ok (0, A) ∧
    A.rows = some 1 ∧ A.columns = some 2 ∧ A.ents = .ok [⟨2, 2, conv (chars "7")⟩, ⟨3, 8, conv (chars "8")⟩] :=
  C74_count_missing (2 ^ 32) (.inl rfl) conv 1 (by decide) _ "a.mtx" (banner := mmBanner) (comments := []) (short := chars "9 9")
    (l := ⟨[], chars "1", chars " ", chars "2", chars " ", ⟨[], chars "5", none, none⟩, [], 1, 2⟩)
    (ls := [⟨[], chars "3", chars " ", chars "3", chars " ", ⟨[], chars "7", none, none⟩, [], 3, 3⟩,
      ⟨[], chars "4", chars " ", chars "9", chars " ", ⟨[], chars "8", none, none⟩, [], 4, 9⟩]) (tail := [nl]) (digits := chars "5") (k := 5)
    mmBanner_ok.line mmBanner_ok.words (.inl rfl) (by simp) (by unfold LineOk; decide +kernel)
    (.two (a := []) (t := chars "9") (b := chars " ") (u := chars "9") (c := []) (n := 9) (m := 9) blank_nil
      (by simp only [Numeral, Unsigned, Digits]; decide +kernel) (by decide) blank_space (by decide)
      (by simp only [Numeral, Unsigned, Digits]; decide +kernel) (by decide) blank_nil)
    (by
      constructor
      all_goals first
        | (simp only [Blank, Numeral, Unsigned, Digits]; decide +kernel)
        | exact ⟨.inl rfl, by simp only [Digits]; decide +kernel, by simp, .inl (by decide), by simp⟩)
    (by decide) (by decide) rfl (by simp only [Unsigned, Digits]; decide +kernel) (by decide) (by simp)
    (by
      intro l hl
      simp only [List.mem_cons, List.not_mem_nil, or_false] at hl
      rcases hl with rfl | rfl
      all_goals
        refine ⟨?_, by decide, by decide⟩
        constructor
        all_goals first
          | (simp only [Blank, Numeral, Unsigned, Digits]; decide +kernel)
          | exact ⟨.inl rfl, by simp only [Digits]; decide +kernel, by simp, .inl (by decide), by simp⟩)
    (by simp only [Blank]; decide +kernel) (by decide +kernel)

/-- A hermitian file. -/
def exHerm : MmFile :=
  { exSkew with banner := chars "%%MatrixMarket matrix coordinate real Hermitian", symmetry := chars "hermitian" }

theorem exHerm_ok : exHerm.Ok := by
  have h := exSkew_ok
  refine ⟨⟨?_, ⟨chars "matrix", chars "coordinate", chars "real", chars "Hermitian", ?_⟩, h.head.comments, h.head.lead, h.head.size_line, h.head.s0,
    h.head.s1, h.head.s2, h.head.s3, h.head.rowsText, h.head.columnsText, h.head.nnzText⟩, rfl, h.lines, h.tail⟩
  · simp only [exHerm, LineOk]; decide +kernel
  · decide +kernel

example := C44_hermitian (2 ^ 32) (by decide) (fun t => (t.length : Int)) 1 (by decide) (fun _ => some exHerm.text) "a.mtx" exHerm_ok (.inl rfl) rfl
  rfl (by decide) (by decide) rfl (by decide +kernel) (by decide +kernel) (by decide +kernel)

theorem exPatFile_head : exPatFile.HeadOk := by
  have h := exFile_head "general" (.inl rfl)
  exact ⟨by simp only [exPatFile, LineOk]; decide +kernel,
    ⟨chars "matrix", chars "coordinate", chars "pattern", chars "general", by decide +kernel⟩, h.comments, h.lead,
    by unfold LineOk; simp only [exPatFile, exFile, MmFile.sizeLine]; decide +kernel, h.s0, h.s1, h.s2, h.s3, h.rowsText, h.columnsText,
    by simp only [exPatFile, Numeral, Unsigned, Digits]; decide +kernel⟩

theorem exPat_ok : ∀ l ∈ exPat, l.Ok 3 3 := by
  intro l hl
  simp only [exPat, List.mem_cons, List.not_mem_nil, or_false] at hl
  rcases hl with rfl | rfl | rfl
  all_goals
    constructor
    all_goals simp only [Blank, Numeral, Unsigned, Digits]
    all_goals decide +kernel

example := C44_pattern_loses (2 ^ 32) (by decide) (fun t => (t.length : Int)) 1 (by decide) (fun _ => some exPatFile.text) "a.mtx" exPatFile_head rfl rfl
  (by decide) (by decide) (by decide) exPat rfl exPat_ok rfl (by decide) rfl

/-- One line of the pattern file. -/
def exPatOne : MmFile := { exPatFile with nnzText := chars "1", nnz := 1, tail := joinLines [(⟨[], chars "1", chars " ", chars "2", [], 1, 2⟩ : PatLine).text] [nl] }

example := C44_pattern_one (2 ^ 32) (by decide) (fun t => (t.length : Int)) 1 (by decide) (fun _ => some exPatOne.text) "a.mtx" (F := exPatOne)
  (by
    have h := exPatFile_head
    exact ⟨h.banner_line, h.banner_fields, h.comments, h.lead, by unfold LineOk; simp only [exPatOne, exPatFile, exFile, MmFile.sizeLine]; decide +kernel,
      h.s0, h.s1, h.s2, h.s3, h.rowsText, h.columnsText, by simp only [exPatOne, Numeral, Unsigned, Digits]; decide +kernel⟩)
  rfl rfl (by decide) (by decide) rfl ⟨[], chars "1", chars " ", chars "2", [], 1, 2⟩ rfl (exPat_ok _ (by simp [exPat])) rfl

/-- Whole numbers. -/
def exFmt (v : UInt8) : Fixed6 := ⟨false, v.toNat, 0⟩

example := C45_wide (fun t => UInt8.ofNat t.length) exFmt 1 (by decide) exDisk exNone "a.mtx" (2 ^ 31) 3 exF (by decide) (by decide)
  (by decide) (by decide) (by decide) ⟨rfl, by decide +kernel, by decide +kernel⟩
example := C45_failure_unnoticed exFmt exTight exNone "a.mtx" 4 3 exF rfl
example := C46_bin 4 byteCodec (fun t => UInt8.ofNat t.length) 1 exNone "dir.mtx/a.bin" ⟨"dir.mtx/a".toList, by decide⟩
example := C46_mtx 4 byteCodec (fun t => UInt8.ofNat t.length) 1 exNone "x.bin.mtx" ⟨"x.bin".toList, by decide⟩
example := C46_other 4 byteCodec (fun t => UInt8.ofNat t.length) 1 exNone "a.MTX" (by rw [← C46_suffix]; decide) (by rw [← C46_suffix]; decide)

/-! ### Files that cannot be opened -/

example := C65_writers 4 byteCodec (idx 4) exFmt ⟨fun n => n != "a.bin", 40, 40⟩ exNone "a.bin" 4 3 2 2 1 exF exG [1, 2] _ (.inl rfl)
example := C65_three_files 4 byteCodec ⟨fun n => n != "c", 40, 40⟩ exNone "r" "c" "v" exF (.inr (.inl rfl))
example := C65_readers 4 byteCodec (idx 4) false (fun t => UInt8.ofNat t.length) 1 (2 ^ 32) (exNone.set "r" []) "a.bin" "r" "q" (2 ^ 16) 4 (fun _ _ _ => .coo) true [0, 1, 4] 2 [0, 2, 3] 2 rfl
example := C65_readers_row 4 byteCodec (by decide) (exNone.set "v" [1, 2]) "r" "c" "v" _ rfl rfl
example := C65_readers_col 4 (by decide) byteCodec (by decide) ((exNone.set "v" [1, 2]).set "r" [1, 0, 0, 0, 2, 0, 0, 0]) "r" "c" "v" _ _ rfl rfl
  (by decide) rfl
example := C39_coo_short 4 (by decide) byteCodec (by decide)
  (((exNone.set "v" [1, 2]).set "r" [1, 0, 0, 0, 2, 0, 0, 0]).set "c" [1, 0, 0, 0, 2]) "r" "c" "v" _ _ _ rfl rfl rfl (.inr (by decide))

end Gsb
