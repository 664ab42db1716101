import Verif.Spec.Files
/-
Specification of the MatrixMarket coordinate format, as text.  Nothing here refers to the code.
-/
namespace Gsb

/-- The bytes of an ASCII string. -/
def chars (s : String) : Bytes := s.toList.map (fun c => UInt8.ofNat c.toNat)

/-- A newline. -/
abbrev nl : UInt8 := 10

/-- White space: space, tab, newline, vertical tab, form feed, carriage return. -/
def isBlank (b : UInt8) : Bool := b == 32 || (9 ≤ b && b ≤ 13)

/-- A decimal digit. -/
def isDigit (b : UInt8) : Bool := 48 ≤ b && b ≤ 57

/-- Only white space. -/
def Blank (t : Bytes) : Prop := ∀ b ∈ t, isBlank b = true

/-- Only digits. -/
def Digits (t : Bytes) : Prop := ∀ b ∈ t, isDigit b = true

/-- The number some digits stand for. -/
def decVal (t : Bytes) : Nat := t.foldl (fun n b => 10 * n + (b.toNat - 48)) 0

/-- `t` consists of digits (leading zeros allowed) for `n`. -/
def Unsigned (t : Bytes) (n : Nat) : Prop := t ≠ [] ∧ Digits t ∧ decVal t = n

/-- The text without a plus sign at its beginning. -/
def unplus (t : Bytes) : Bytes := if t.head? = some 43 then t.tail else t

/-- `t` is a decimal numeral for `n`: digits, with or without a plus sign before them. -/
def Numeral (t : Bytes) (n : Nat) : Prop := Unsigned (unplus t) n

/-- `t` is a decimal numeral for the 32-bit integer `z`. -/
def IntText (t : Bytes) (z : Int) : Prop :=
  (∃ n, Numeral t n ∧ n < 2 ^ 31 ∧ z = (n : Int)) ∨ (∃ d n, t = 45 :: d ∧ Unsigned d n ∧ n ≤ 2 ^ 31 ∧ z = -(n : Int))

/-- The lower-case form of an ASCII letter. -/
def lowerByte (b : UInt8) : UInt8 := if 65 ≤ b && b ≤ 90 then b + 32 else b

/-- The fields of a line: the longest pieces without white space. -/
def fields (line : Bytes) : List Bytes := (line.splitOnP isBlank).filter (fun t => !t.isEmpty)

/-- A sign or nothing. -/
def SignText (t : Bytes) : Prop := t = [] ∨ t = chars "+" ∨ t = chars "-"

/-- A decimal real number: sign, digits, optional fraction, optional exponent. -/
structure DecText where
  sign : Bytes
  int : Bytes
  frac : Option Bytes
  exp : Option (UInt8 × Bytes × Bytes)

/-- A fraction as written: the point and the digits after it. -/
def fracText : Option Bytes → Bytes
  | none => []
  | some d => chars "." ++ d

/-- An exponent as written: the letter, the sign, the digits. -/
def expText : Option (UInt8 × Bytes × Bytes) → Bytes
  | none => []
  | some (e, s, d) => e :: (s ++ d)

/-- What is written in the file. -/
def DecText.text (v : DecText) : Bytes := v.sign ++ v.int ++ fracText v.frac ++ expText v.exp

/-- At least one digit before or after the point, and at least one in the exponent. -/
structure DecText.Ok (v : DecText) : Prop where
  sign : SignText v.sign
  int : Digits v.int
  frac : ∀ d, v.frac = some d → Digits d
  some_digit : v.int ≠ [] ∨ ∃ d, v.frac = some d ∧ d ≠ []
  exp : ∀ e s d, v.exp = some (e, s, d) → (e = 69 ∨ e = 101) ∧ SignText s ∧ Digits d ∧ d ≠ []

/-- A line holding one entry: `row column value` with white space around (which may include empty
lines and carriage returns). -/
structure MmLine where
  b0 : Bytes
  rowText : Bytes
  b1 : Bytes
  colText : Bytes
  b2 : Bytes
  val : DecText
  b3 : Bytes
  /-- the entry's indices, from one -/
  row : Nat
  col : Nat

/-- The text of the line, without its newline. -/
def MmLine.text (l : MmLine) : Bytes :=
  l.b0 ++ l.rowText ++ l.b1 ++ l.colText ++ l.b2 ++ l.val.text ++ l.b3

/-- The line is well-formed. -/
structure MmLine.Syntax (l : MmLine) : Prop where
  b0 : Blank l.b0
  b1 : Blank l.b1 ∧ l.b1 ≠ []
  b2 : Blank l.b2 ∧ l.b2 ≠ []
  b3 : Blank l.b3
  rowText : Numeral l.rowText l.row
  colText : Numeral l.colText l.col
  val : l.val.Ok

/-- The line is well-formed and its entry lies in a matrix of this size. -/
structure MmLine.Ok (l : MmLine) (rows columns : Nat) : Prop extends MmLine.Syntax l where
  row : 1 ≤ l.row ∧ l.row ≤ rows
  col : 1 ≤ l.col ∧ l.col ≤ columns

/-- Lines with a newline between each two, and then `tail`. -/
def joinLines : List Bytes → Bytes → Bytes
  | [], tail => tail
  | [l], tail => l ++ tail
  | l :: l' :: ls, tail => l ++ nl :: joinLines (l' :: ls) tail

/-- A line that fits the line buffer of the reader: at most 1023 characters, none of them a newline
or a NUL. -/
def LineOk (t : Bytes) : Prop := t.length ≤ 1023 ∧ nl ∉ t ∧ (0 : UInt8) ∉ t

/-- A MatrixMarket coordinate file: banner, comments, size line, entry lines. -/
structure MmFile where
  banner : Bytes
  /-- the fourth and fifth field of the banner, in lower case -/
  field : Bytes
  symmetry : Bytes
  comments : List Bytes
  /-- empty lines before the size line -/
  lead : Bytes
  s0 : Bytes
  rowsText : Bytes
  s1 : Bytes
  columnsText : Bytes
  s2 : Bytes
  nnzText : Bytes
  s3 : Bytes
  rows : Nat
  columns : Nat
  nnz : Nat
  lines : List MmLine
  tail : Bytes

/-- The size line without its newline. -/
def MmFile.sizeLine (F : MmFile) : Bytes :=
  F.s0 ++ F.rowsText ++ F.s1 ++ F.columnsText ++ F.s2 ++ F.nnzText ++ F.s3

/-- Everything after the size line. -/
def MmFile.body (F : MmFile) : Bytes := joinLines (F.lines.map MmLine.text) F.tail

/-- The bytes of the file. -/
def MmFile.text (F : MmFile) : Bytes :=
  F.banner ++ nl :: (F.comments.flatMap (fun c => c ++ [nl]) ++ (F.lead ++ (F.sizeLine ++ nl :: F.body)))

/-- Well-formedness up to the size line. -/
structure MmFile.HeadOk (F : MmFile) : Prop where
  banner_line : LineOk F.banner
  /-- the five words of the banner, the first exactly, the others in either case -/
  banner_fields : ∃ a b c d, fields F.banner = [chars "%%MatrixMarket", a, b, c, d] ∧
    a.map lowerByte = chars "matrix" ∧ b.map lowerByte = chars "coordinate" ∧
    c.map lowerByte = F.field ∧ d.map lowerByte = F.symmetry
  comments : ∀ c ∈ F.comments, LineOk c ∧ c.head? = some 37
  lead : F.lead = [] ∨ ∃ l0 l1, F.lead = l0 ++ nl :: l1 ∧ LineOk l0 ∧ Blank l0 ∧ Blank l1
  size_line : LineOk F.sizeLine
  s0 : Blank F.s0
  s1 : Blank F.s1 ∧ F.s1 ≠ []
  s2 : Blank F.s2 ∧ F.s2 ≠ []
  s3 : Blank F.s3
  rowsText : Numeral F.rowsText F.rows
  columnsText : Numeral F.columnsText F.columns
  nnzText : Numeral F.nnzText F.nnz

/-- Well-formedness: as many entry lines as the size line says, each within the matrix. -/
structure MmFile.Ok (F : MmFile) : Prop where
  head : F.HeadOk
  count : F.lines.length = F.nnz
  lines : ∀ l ∈ F.lines, l.Ok F.rows F.columns
  tail : Blank F.tail

/-- The entry a line gives, with indices from zero; `conv` is the value of a decimal numeral in the
value type. -/
def MmLine.ent {T : Type} (conv : Bytes → T) (l : MmLine) : Ent T := ⟨l.row - 1, l.col - 1, conv l.val.text⟩

/-- The entries an entry of a symmetric file stands for: itself, and its mirror image unless it is on
the diagonal. -/
def mirrored {T : Type} (e : Ent T) : List (Ent T) :=
  if e.row = e.col then [e] else [e, ⟨e.col, e.row, e.val⟩]

end Gsb
