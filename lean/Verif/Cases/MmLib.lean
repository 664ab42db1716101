import Verif.Props.MmLib
import Verif.Cases.Files
/-
Concrete cases for the bundled Matrix Market library.
-/
namespace Gsb

example := C80_banner ⟨77, 65, 67, 75⟩ (fw := chars "array") (dw := chars "complex") (sw := chars "skew-symmetric") rfl rfl rfl rfl

/-- The header line of a symmetric pattern: all of it is written, and 17 is returned. -/
example : mmWriteBanner 100 [] ⟨77, 67, 80, 83⟩ = .ok (17, chars "%%MatrixMarket matrix coordinate pattern symmetric\n") := by decide +kernel

example := C80_writers_return_17 100 (chars "abc")

example := C80_banner_null ⟨77, 67, 32, 71⟩ (.inr (.inl rfl)) 100 []

example := C80_banner_object ⟨32, 67, 82, 71⟩ (fw := chars "coordinate") (dw := chars "real") (sw := chars "general") (by decide) rfl rfl rfl 100 []

example := C80_valid ⟨77, 65, 80, 71⟩ (fw := chars "array") (dw := chars "pattern") (sw := chars "general") rfl rfl rfl rfl

example : mmIsValid ⟨77, 67, 80, 83⟩ = true ∧ mmIsValid ⟨77, 65, 80, 71⟩ = false ∧ mmIsValid ⟨77, 67, 80, 75⟩ = false := by decide

theorem exComment : ∀ c ∈ [chars "% a comment", chars "%"], LineOk c ∧ c.head? = some 37 := by
  unfold LineOk; decide +kernel

example := C80_array_size exComment (m := 7) (n := -2) (by decide) (by decide) 1

example := C80_crd_size exComment (m := 7) (n := 4) (nz := 2147483647) (by decide) (by decide) (by decide) 1 (by decide)

/-- The head of a file with two entries and these words. -/
def exCrd (field symmetry : String) : MmFile :=
  { exFile "general" with banner := chars ("%%MatrixMarket matrix coordinate " ++ field ++ " " ++ symmetry), field := chars field, symmetry := chars symmetry }

theorem exCrd_head {field symmetry : String} (h : (field, symmetry) ∈ [("complex", "hermitian"), ("integer", "general"), ("real", "symmetric"),
    ("real", "general"), ("pattern", "symmetric")]) : (exCrd field symmetry).HeadOk := by
  have h0 := exFile_head "general" (.inl rfl)
  refine ⟨?_, ⟨chars "matrix", chars "coordinate", chars field, chars symmetry, ?_⟩, h0.comments, h0.lead,
      h0.size_line, h0.s0, h0.s1, h0.s2, h0.s3, h0.rowsText, h0.columnsText, h0.nnzText⟩
  all_goals
    simp only [List.mem_cons, Prod.mk.injEq, List.not_mem_nil, or_false] at h
    rcases h with ⟨rfl, rfl⟩ | ⟨rfl, rfl⟩ | ⟨rfl, rfl⟩ | ⟨rfl, rfl⟩ | ⟨rfl, rfl⟩
    all_goals
      simp only [exCrd, LineOk]
      decide +kernel

def exHalf : DecText := ⟨chars "-", chars "1", some (chars "5"), some (101, chars "+", chars "3")⟩

theorem exHalf_ok : exHalf.Ok :=
  ⟨.inr (.inr rfl), by simp only [exHalf, Digits]; decide +kernel, by intro d hd; cases hd; simp only [Digits]; decide +kernel, .inl (by decide),
    by intro e s d hd; cases hd; exact ⟨.inr rfl, .inr (.inl rfl), by simp only [Digits]; decide +kernel, by decide⟩⟩

/-- Two lines with `k` values each; the first begins with `2 1`, the second with ` +3 3`. -/
def exCrdLines (k : Nat) : List CrdLine :=
  [⟨[], chars "2", chars " ", chars "1", List.replicate k (chars " ", exHalf), [13], 2, 1⟩,
   ⟨chars " ", chars "+3", chars "  ", chars "3", List.replicate k (chars " ", exHalf), [], 3, 3⟩]

theorem exCrdLines_ok (k : Nat) : ∀ l ∈ exCrdLines k, l.Ok k := by
  have hv : ∀ p ∈ List.replicate k (chars " ", exHalf), (Blank p.1 ∧ p.1 ≠ []) ∧ p.2.Ok := by
    intro p hp
    rw [(List.mem_replicate.1 hp).2]
    exact ⟨⟨blank_space, by decide⟩, exHalf_ok⟩
  have hnum : ∀ (t : Bytes) (n : Nat), Numeral t n → n < 2 ^ 31 → IntText t n := fun t n h h' => .inl ⟨n, h, h', rfl⟩
  intro l hl
  simp only [exCrdLines, List.mem_cons, List.not_mem_nil, or_false] at hl
  rcases hl with rfl | rfl
  · refine ⟨blank_nil, ⟨blank_space, show chars " " ≠ [] by decide⟩, ?_, hnum _ 2 ?_ (by decide), hnum _ 1 ?_ (by decide), hv, by simp⟩
    · simp only [Blank]; decide +kernel
    · simp only [Numeral, Unsigned, Digits]; decide +kernel
    · simp only [Numeral, Unsigned, Digits]; decide +kernel
  · refine ⟨blank_space, ⟨?_, show chars "  " ≠ [] by decide⟩, blank_nil, hnum _ 3 ?_ (by decide), hnum _ 3 ?_ (by decide), hv, by simp⟩
    · simp only [Blank]; decide +kernel
    · simp only [Numeral, Unsigned, Digits]; decide +kernel
    · simp only [Numeral, Unsigned, Digits]; decide +kernel

/-- A hermitian file with two complex entries. -/
example := C81_read (fun t => t.length) 1 (by decide) (fun _ => some ((exCrd "complex" "hermitian").textWith (exCrdLines 2) [nl])) [] "a.mtx"
  (by decide) (exCrd_head (by decide)) (x := 67) (y := 72) rfl rfl (by decide) (by decide) (by decide) (by decide) (by decide) (by decide)
  (fun _ => by decide) (exCrdLines_ok 2) rfl (by simp only [Blank]; decide +kernel) rfl

/-- A symmetric pattern. -/
example := C81_read (fun t => t.length) 1 (by decide) (fun _ => some ((exCrd "pattern" "symmetric").textWith (exCrdLines 0) [nl])) [] "a.mtx"
  (by decide) (exCrd_head (by decide)) (x := 80) (y := 83) rfl rfl (by decide) (by decide) (by decide) (by decide) (by decide) (by decide)
  (fun _ => by decide) (exCrdLines_ok 0) rfl (by simp only [Blank]; decide +kernel) rfl

example := C81_short (fun t => t.length) 1 (by decide) (fun _ => some ((exCrd "real" "general").textWith ((exCrdLines 1).take 1) [nl])) [] "a.mtx"
  (by decide) (exCrd_head (field := "real") (symmetry := "general") (by decide)) (x := 82) (y := 71) rfl rfl (by decide) (by decide) (by decide) (by decide) (by decide) (by decide)
  (fun _ => by decide) (fun l h => exCrdLines_ok 1 l (List.mem_of_mem_take h)) (by decide) (by simp only [Blank]; decide +kernel) rfl

example := C81_integer_unread (fun t => t.length) 1 (by decide) (fun _ => some ((exCrd "integer" "general").textWith (exCrdLines 1) [nl])) [] "a.mtx"
  (by decide) (exCrd_head (by decide)) rfl (y := 71) rfl (by decide) (by decide) (by decide) _ rfl

example := (C81_refused (fun t => t.length) 1 (fun _ => none) [] "a.mtx" (by decide)).1 rfl

example := (C81_refused (fun t => t.length) 1 (fun _ => some (chars "hello\n")) [] "a.mtx" (by decide)).2.1 (chars "hello\n") 12 ⟨32, 32, 32, 71⟩ [] rfl
  (by rfl) (by decide)

/-- A dense real matrix is refused. -/
example := (C81_refused (fun t => t.length) 1 (fun _ => some (headerLine (chars "array") (chars "real") (chars "general") ++ nl :: chars "2 2\n")) []
  "a.mtx" (by decide)).2.2 (headerLine (chars "array") (chars "real") (chars "general")) (chars "2 2\n") (chars "matrix") (chars "array") (chars "real")
  (chars "general") (chars "array") (chars "real") (chars "general") 65 82 71 rfl (by unfold LineOk; decide +kernel) (by decide +kernel) (by decide)
  (by decide) (by decide) (by decide) rfl rfl rfl (.inl rfl)

/-- A complex file with 2^30 entries. -/
def exCrdHuge : MmFile := { exCrd "complex" "hermitian" with nnzText := chars "1073741824", nnz := 1073741824 }

theorem exCrdHuge_head : exCrdHuge.HeadOk := by
  have h := exCrd_head (field := "complex") (symmetry := "hermitian") (by decide)
  exact ⟨h.banner_line, h.banner_fields, h.comments, h.lead,
    by unfold LineOk; simp only [exCrdHuge, exCrd, exFile, MmFile.sizeLine]; decide +kernel, h.s0, h.s1, h.s2, h.s3, h.rowsText, h.columnsText,
    by simp only [exCrdHuge, Numeral, Unsigned, Digits]; decide +kernel⟩

example := C81_complex_overflow (fun t => t.length) 1 (by decide) (fun _ => some (exCrdHuge.textWith (exCrdLines 2) [nl])) [] "a.mtx" (by decide)
  exCrdHuge_head rfl (y := 72) rfl (by decide) (by decide) (by decide) (by decide) _ rfl

example := C81_stdin (fun t => t.length) 1 (fun _ => none) (fun _ => some (chars "abc")) (chars "abc") "a.mtx" (by decide) rfl

/-- Two complex entries, one of them with a negative index. -/
example := C81_write_read (fun t => exHalf) (fun _ : DecText => exHalf) (fun _ => exHalf_ok) 1 (by decide) (x := 67) (y := 71)
  (dw := chars "complex") (sw := chars "general") rfl rfl (by decide) (by decide) (by decide) (m := 3) (n := 3) (by decide) (by decide)
  [1, 3] [2, -5] [exHalf, exHalf, exHalf, exHalf] (by decide) (by decide) rfl (by decide) (by decide) (fun _ => by decide)

example := C81_write_read (fun t => exHalf) (fun _ : DecText => exHalf) (fun _ => exHalf_ok) 1 (by decide) (x := 80) (y := 83)
  (dw := chars "pattern") (sw := chars "symmetric") rfl rfl (by decide) (by decide) (by decide) (m := 3) (n := 3) (by decide) (by decide)
  [1, 3] [2, 2147483647] [] (by decide) (by decide) rfl (by decide) (by decide) (fun _ => by decide)

/-- The text of a real entry: the number takes at least 20 characters. -/
example : mmCrdText (fun _ : Unit => exHalf) ⟨77, 67, 82, 71⟩ 3 3 1 ⟨Buf.ofList [1], Buf.ofList [2], Buf.ofList [()]⟩ =
    .ok (0, chars "%%MatrixMarket matrix coordinate real general\n3 3 1\n1 2              -1.5e+3\n") := by decide +kernel

example := C81_write_integer (fun _ : Unit => exHalf) exDisk exNone "a.mtx" (by decide) 3 3 1 ⟨Buf.ofList [1], Buf.ofList [2], Buf.ofList [()]⟩
  (f := 67) (y := 71) (fw := chars "coordinate") (sw := chars "general") rfl rfl

/-- The disk of the cases has room for it. -/
example : exDisk.Works (chars "%%MatrixMarket matrix coordinate integer general\n3 3 1\n").length "a.mtx" := ⟨rfl, by decide, by decide⟩

example := C81_write_unopened (fun _ : Unit => exHalf) ⟨fun _ => false, 10, 10⟩ exNone "a.mtx" (by decide) rfl 3 3 1
  ⟨Buf.ofList [1], Buf.ofList [2], Buf.ofList [()]⟩ ⟨77, 67, 82, 71⟩

example := C81_entry (fun t => t.length) (x := 67) (dw := chars "complex") rfl (by decide) (exCrdLines_ok 2 _ (List.mem_cons_self ..))
  (rest := nl :: chars "3 3") (by intro b hb; simp at hb; subst hb; decide) 77 67 72

example := C81_entry_end (fun t => t.length) ⟨77, 67, 82, 71⟩ ⟨Buf.uninit 1, Buf.uninit 1, Buf.uninit 2⟩ (s := [nl])
  (by simp only [Blank]; decide +kernel)

theorem exCrdLines_big : ∀ l ∈ exCrdLines 1, l.Ok 1 ∧ -2 ^ 31 < l.row ∧ -2 ^ 31 < l.col := by
  intro l hl
  refine ⟨exCrdLines_ok 1 l hl, ?_⟩
  simp only [exCrdLines, List.mem_cons, List.not_mem_nil, or_false] at hl
  rcases hl with rfl | rfl <;> decide

/-- A symmetric file: two entries, from zero; the mirror images are not there. -/
example := C82_read (fun t => t.length) 1 (by decide) (fun _ => some ((exCrd "real" "symmetric").textWith (exCrdLines 1) [nl])) "a.mtx"
  (exCrd_head (by decide)) rfl (y := 83) rfl (by decide) (by decide) (by decide) exCrdLines_big rfl (by simp only [Blank]; decide +kernel) rfl

example := C82_short (fun t => t.length) 1 (by decide) (fun _ => some ((exCrd "real" "general").textWith ((exCrdLines 1).take 1) [nl])) "a.mtx"
  (exCrd_head (by decide)) rfl (y := 71) rfl (by decide) (by decide) (by decide) (fun l h => exCrdLines_big l (List.mem_of_mem_take h))
  (by decide) (by simp only [Blank]; decide +kernel) rfl

example := (C82_refused (fun t => t.length) 1 (fun _ => none) "a.mtx").1 rfl

example := (C82_refused (fun t => t.length) 1 (fun _ => some (chars "hello\n")) "a.mtx").2.1 (chars "hello\n") 12 ⟨32, 32, 32, 71⟩ [] rfl
  (by rfl) (by decide)

/-- A pattern is refused. -/
example := (C82_refused (fun t => t.length) 1 (fun _ => some (headerLine (chars "coordinate") (chars "pattern") (chars "general") ++ nl :: chars "2 2 0\n"))
  "a.mtx").2.2 (headerLine (chars "coordinate") (chars "pattern") (chars "general")) (chars "2 2 0\n") (chars "matrix") (chars "coordinate") (chars "pattern")
  (chars "general") (chars "coordinate") (chars "pattern") (chars "general") 67 80 71 rfl (by unfold LineOk; decide +kernel) (by decide +kernel) (by decide)
  (by decide) (by decide) (by decide) rfl rfl rfl (.inr (by decide))

/-- A size line after two comments and an empty line. -/
example := C80_array_size_read exComment (lead := chars "\n") (s0 := chars " ") (t0 := chars "2") (s1 := chars "  ") (t1 := chars "+3") (s2 := [])
  (m := 2) (n := 3) (.inr ⟨[], [], rfl, by unfold LineOk; decide, blank_nil, blank_nil⟩) (by unfold LineOk; decide +kernel) blank_space
  ⟨by unfold Blank; decide +kernel, by decide⟩ blank_nil (.inl ⟨2, by simp only [Numeral, Unsigned, Digits]; decide +kernel, by decide, rfl⟩)
  (.inl ⟨3, by simp only [Numeral, Unsigned, Digits]; decide +kernel, by decide, rfl⟩) 1 (by decide) (chars "1.5\n")

example := C80_array_size_none exComment (s := chars " \n  ") (.inr ⟨chars " ", chars "  ", rfl, by unfold LineOk; decide +kernel, blank_space,
  by unfold Blank; decide +kernel⟩) 1 (by decide)

/-- After the first of two real entries: a letter, an entry without column, and one without value. -/
example (t : Bytes) (ht : t ∈ [chars " x 1 2.5\n", chars "3 ", chars " +3  3"]) :=
  C81_bad_entry (fun t => t.length) 1 (by decide)
  (fun _ => some ((exCrd "real" "general").banner ++ nl :: ((exCrd "real" "general").comments.flatMap (fun c => c ++ [nl]) ++
    ((exCrd "real" "general").lead ++ ((exCrd "real" "general").sizeLine ++
      nl :: (((exCrdLines 1).take 1).flatMap (fun l => l.text ++ [nl]) ++ t)))))) [] "a.mtx"
  (by decide) (exCrd_head (field := "real") (symmetry := "general") (by decide)) (x := 82) (y := 71) rfl rfl (by decide) (by decide) (by decide)
  (by decide) (by decide) (by decide) (fun _ => by decide) (fun l h => exCrdLines_ok 1 l (List.mem_of_mem_take h)) (by decide)
  (by
    have hk : perLine (exCrd "real" "general").field = 1 := by decide
    rw [hk]
    simp only [List.mem_cons, List.not_mem_nil, or_false] at ht
    rcases ht with rfl | rfl | rfl
    · exact .junk (chars " ") 120 (chars " 1 2.5\n") blank_space (by decide) (by decide) (by decide) (by decide)
    · exact .row [] (chars "3") (chars " ") 3 blank_nil (.inl ⟨3, by simp only [Numeral, Unsigned, Digits]; decide +kernel, by decide, rfl⟩) blank_space
    · exact .cut ((exCrdLines 0)[1]) 0 (exCrdLines_ok 0 _ (List.getElem_mem _)) (by decide)) rfl

end Gsb
