import Verif.Spec.MatrixMarket
/-
Specification for the bundled Matrix Market library: the header line a type code stands for, and the
lines of a coordinate file with any number of values.  Nothing here refers to the code.
-/
namespace Gsb

/-- The word of the second letter of a type code. -/
def formatWord : UInt8 → Option Bytes
  | 67 => some (chars "coordinate")
  | 65 => some (chars "array")
  | _ => none

/-- The word of the third letter. -/
def dataWord : UInt8 → Option Bytes
  | 82 => some (chars "real")
  | 67 => some (chars "complex")
  | 80 => some (chars "pattern")
  | 73 => some (chars "integer")
  | _ => none

/-- The word of the fourth letter. -/
def symmWord : UInt8 → Option Bytes
  | 71 => some (chars "general")
  | 83 => some (chars "symmetric")
  | 72 => some (chars "hermitian")
  | 75 => some (chars "skew-symmetric")
  | _ => none

/-- One line of a coordinate file: two integers and some numbers, with white space around. -/
structure CrdLine where
  b0 : Bytes
  rowText : Bytes
  b1 : Bytes
  colText : Bytes
  /-- white space and number, for each number -/
  vals : List (Bytes × DecText)
  b3 : Bytes
  row : Int
  col : Int

/-- The text of the line, without its newline. -/
def CrdLine.text (l : CrdLine) : Bytes :=
  l.b0 ++ l.rowText ++ l.b1 ++ l.colText ++ l.vals.flatMap (fun p => p.1 ++ p.2.text) ++ l.b3

/-- The line is well-formed, with `k` numbers after the indices. -/
structure CrdLine.Ok (l : CrdLine) (k : Nat) : Prop where
  b0 : Blank l.b0
  b1 : Blank l.b1 ∧ l.b1 ≠ []
  b3 : Blank l.b3
  rowText : IntText l.rowText l.row
  colText : IntText l.colText l.col
  vals : ∀ p ∈ l.vals, (Blank p.1 ∧ p.1 ≠ []) ∧ p.2.Ok
  count : l.vals.length = k

/-- How many numbers follow the indices, by the fourth word of the header. -/
def perLine (field : Bytes) : Nat :=
  if field = chars "complex" then 2 else if field = chars "real" then 1 else 0

/-- A file with the header, comments and size line of `F` and these lines after them. -/
def MmFile.textWith (F : MmFile) (ls : List CrdLine) (tail : Bytes) : Bytes :=
  F.banner ++ nl :: (F.comments.flatMap (fun c => c ++ [nl]) ++ (F.lead ++ (F.sizeLine ++ nl :: joinLines (ls.map CrdLine.text) tail)))

end Gsb
