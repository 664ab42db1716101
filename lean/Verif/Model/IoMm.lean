import Verif.Model.IoBin
import Verif.Spec.MatrixMarket
/-
Models of the MatrixMarket reader and writer: include/io/input.h, include/io/output.h, and what they
use of dep/mm_io/mm_io.c.  A stream open for reading is the bytes not read yet.  `M` is the number of
values of the index type `IT` (2^32 or 2^64), `int` has 32 bits and `unsigned long` 64.

`conv` stands for what `strtod` and the conversion of the resulting `double` to `T` make of a decimal
numeral; `fmt` for the rounding `%f` does.  The forms `inf`, `nan` and `0x…` of `%lg` are outside the
model: reading one ends in the error `ub`, and no theorem is about it.
-/
namespace Gsb
variable {T : Type}

/-- White space in a `scanf` format, and what `%lu`, `%d`, `%lg`, `%s` skip first. -/
def skipWs (s : Bytes) : Bytes := s.dropWhile isBlank

/-- The outcome of a conversion: the input ended first, it does not match (what has been consumed is
consumed), or a value. -/
inductive ScanRes (α : Type) where
  | eof
  | fail (rest : Bytes)
  | got (a : α) (rest : Bytes)

/-- An optional sign: whether it is a minus, and what follows. -/
def scanSign : Bytes → Bool × Bytes
  | [] => (false, [])
  | b :: s => if b = 45 then (true, s) else if b = 43 then (false, s) else (false, b :: s)

/-- A decimal integer, for `%lu` and `%d`: sign and absolute value. -/
def scanInt (s : Bytes) : ScanRes (Bool × Nat) :=
  match skipWs s with
  | [] => .eof
  | b :: t =>
    let p := scanSign (b :: t)
    let ds := p.2.takeWhile isDigit
    let rest := p.2.dropWhile isDigit
    if ds = [] then .fail rest else .got (p.1, decVal ds) rest

/-- `%lu`: a number with a minus sign is negated modulo 2^64; one that does not fit is undefined
behaviour (C11 7.21.6.2p10). -/
def scanLu (s : Bytes) : C (ScanRes Nat) :=
  match scanInt s with
  | .eof => .ok .eof
  | .fail r => .ok (.fail r)
  | .got (neg, n) r =>
    if n < 2 ^ 64 then .ok (.got (if neg then (2 ^ 64 - n) % 2 ^ 64 else n) r) else .error .ub

/-- `%d`. -/
def scanD (s : Bytes) : C (ScanRes Int) :=
  match scanInt s with
  | .eof => .ok .eof
  | .fail r => .ok (.fail r)
  | .got (neg, n) r =>
    if neg then (if n ≤ 2 ^ 31 then .ok (.got (-(n : Int)) r) else .error .ub)
    else (if n < 2 ^ 31 then .ok (.got (n : Int) r) else .error .ub)

/-- The forms of `%lg` that are not modelled: infinities, NaN and hexadecimal numbers. -/
def unmodelledLg (s : Bytes) : Bool :=
  match s with
  | [] => false
  | b :: t => [73, 105, 78, 110].contains b || (b == 48 && [some 88, some 120].contains t.head?)

/-- The fraction of a decimal number: digits after the point, if there is a point. -/
def scanFrac (s : Bytes) : Option Bytes × Bytes :=
  match s with
  | [] => (none, [])
  | b :: t => if b = 46 then (some (t.takeWhile isDigit), t.dropWhile isDigit) else (none, b :: t)

/-- The exponent; `none`: there is an `e` without digits after it. -/
def scanExp (s : Bytes) : Option Bytes × Bytes :=
  match s with
  | [] => (some [], [])
  | b :: t =>
    if b = 69 ∨ b = 101 then
      let p := scanSign t
      let ds := p.2.takeWhile isDigit
      let rest := p.2.dropWhile isDigit
      (if ds = [] then none else some ds, rest)
    else (some [], b :: t)

/-- `%lg`, of a decimal number; `conv` sees the characters consumed. -/
def scanLg (conv : Bytes → T) (s : Bytes) : C (ScanRes T) :=
  match skipWs s with
  | [] => .ok .eof
  | b :: t =>
    let p := scanSign (b :: t)
    if unmodelledLg p.2 then .error .ub
    else
      let ds := p.2.takeWhile isDigit
      let fr := scanFrac (p.2.dropWhile isDigit)
      if ds = [] ∧ (fr.1 = none ∨ fr.1 = some []) then .ok (.fail fr.2)
      else
        let ex := scanExp fr.2
        match ex.1 with
        | none => .ok (.fail ex.2)
        | some _ => .ok (.got (conv ((b :: t).take ((b :: t).length - ex.2.length))) ex.2)

/-- `%s %s …`, `n` times, into buffers of 64 bytes: the words found.  A longer word overflows its
buffer — mm_io.c:88-89 with MM_MAX_TOKEN_LENGTH, mm_io.h:18. -/
def scanWords : Nat → Bytes → C (List Bytes)
  | 0, _ => .ok []
  | n + 1, s =>
    match skipWs s with
    | [] => .ok []
    | b :: t =>
      let w := (b :: t).takeWhile (fun b => !isBlank b)
      if w.length < 64 then do
        let ws ← scanWords n ((b :: t).dropWhile (fun b => !isBlank b))
        .ok (w :: ws)
      else .error .oob

/-- At most `k` characters, up to and including the first newline. -/
def lineSplit : Nat → Bytes → Bytes × Bytes
  | 0, s => ([], s)
  | _, [] => ([], [])
  | k + 1, b :: s => if b = nl then ([b], s) else
      let r := lineSplit k s
      (b :: r.1, r.2)

/-- `fgets(line, MM_MAX_LINE_LENGTH, f)` with MM_MAX_LINE_LENGTH = 1025 (mm_io.h:16); `none`: NULL. -/
def fgetsLine (s : Bytes) : Option (Bytes × Bytes) := if s = [] then none else some (lineSplit 1024 s)

/-- The C string a line buffer holds. -/
def cstr (line : Bytes) : Bytes := line.takeWhile (· ≠ 0)

/-- `MM_typecode` — mm_io.h:20. -/
structure TypeCode where
  object : UInt8
  format : UInt8
  data : UInt8
  symm : UInt8
  deriving DecidableEq, Repr

/-- The tests on the words of the banner — mm_io.c:101-165.  First component: the value returned. -/
def bannerWords (banner mtx crd dataType scheme : Bytes) : Nat × TypeCode :=
  let t0 : TypeCode := ⟨32, 32, 32, 71⟩
  if ¬ (chars "%%MatrixMarket" <+: banner) then (14, t0)
  else if mtx ≠ chars "matrix" then (15, t0)
  else
    let t1 := { t0 with object := 77 }
    if crd = chars "coordinate" ∨ crd = chars "array" then
      let t2 := { t1 with format := if crd = chars "coordinate" then 67 else 65 }
      if dataType = chars "real" ∨ dataType = chars "complex" ∨ dataType = chars "pattern" ∨ dataType = chars "integer" then
        let t3 := { t2 with data :=
          if dataType = chars "real" then 82 else if dataType = chars "complex" then 67
          else if dataType = chars "pattern" then 80 else 73 }
        if scheme = chars "general" then (0, { t3 with symm := 71 })
        else if scheme = chars "symmetric" then (0, { t3 with symm := 83 })
        else if scheme = chars "hermitian" then (0, { t3 with symm := 72 })
        else if scheme = chars "skew-symmetric" then (0, { t3 with symm := 75 })
        else (15, t3)
      else (15, t2)
    else (15, t1)

/-- `mm_read_banner` — mm_io.c:54-165: value returned, type code, stream. -/
def mmReadBanner (s : Bytes) : C (Nat × TypeCode × Bytes) :=
  let t0 : TypeCode := ⟨32, 32, 32, 71⟩
  match fgetsLine s with
  | none => .ok (12, t0, [])
  | some (line, rest) => do
    let ws ← scanWords 5 (cstr line)
    match ws with
    | [banner, mtx, crd, dataType, scheme] =>
      let r := bannerWords banner (mtx.map lowerByte) (crd.map lowerByte) (dataType.map lowerByte) (scheme.map lowerByte)
      .ok (r.1, r.2, rest)
    | _ => .ok (12, t0, rest)

/-- The loop over comment lines — mm_io.c:444-450: the first line not starting with `%`.  Each turn
consumes input, so `fuel` larger than the input is never used up (`skipComments_total`). -/
def skipComments : Nat → Bytes → C (Option (Bytes × Bytes))
  | 0, _ => .error .budget
  | fuel + 1, s =>
    match fgetsLine s with
    | none => .ok none
    | some (line, rest) => if line.head? = some 37 then skipComments fuel rest else .ok (some (line, rest))

/-- `"%d %d %d"`: count of conversions (-1: the input ended before the first), variables, rest. -/
def scanThreeD (v : Int × Int × Int) (s : Bytes) : C (Int × (Int × Int × Int) × Bytes) := do
  match ← scanD s with
  | .eof => .ok (-1, v, [])
  | .fail r => .ok (0, v, r)
  | .got a s =>
    match ← scanD s with
    | .eof => .ok (1, (a, v.2.1, v.2.2), [])
    | .fail r => .ok (1, (a, v.2.1, v.2.2), r)
    | .got b s =>
      match ← scanD s with
      | .eof => .ok (2, (a, b, v.2.2), [])
      | .fail r => .ok (2, (a, b, v.2.2), r)
      | .got c s => .ok (3, (a, b, c), s)

/-- `do … while (num_items_read != 3)` — mm_io.c:460-467.  Nothing bounds the number of turns. -/
def sizeLoop : Nat → Int × Int × Int → Bytes → C (Nat × (Int × Int × Int) × Bytes)
  | 0, _, _ => .error .budget
  | fuel + 1, v, s => do
    let r ← scanThreeD v s
    if r.1 = -1 then .ok (12, r.2)
    else if r.1 = 3 then .ok (0, r.2)
    else sizeLoop fuel r.2.1 r.2.2

/-- `mm_read_mtx_crd_size` — mm_io.c:407-470: value returned, the three numbers, stream. -/
def mmReadSize (fuel : Nat) (s : Bytes) : C (Nat × (Int × Int × Int) × Bytes) := do
  match ← skipComments (s.length + 1) s with
  | none => .ok (12, (0, 0, 0), [])
  | some (line, rest) =>
    let r ← scanThreeD (0, 0, 0) (cstr line)
    if r.1 = 3 then .ok (0, r.2.1, rest)
    else sizeLoop fuel r.2.1 rest

/-- The variables `r`, `c`, `val` of `read_mm_COO`; `none`: not assigned yet — input.h:50-51. -/
structure MmVars (T : Type) where
  r : Option Nat
  c : Option Nat
  val : Option T

/-- `fscanf(f, "%lu %lu %lg\n", &r, &c, &val)` — input.h:89, 110: value returned (-1 is EOF), variables,
stream. -/
def scanEntry (conv : Bytes → T) (v : MmVars T) (s : Bytes) : C (Int × MmVars T × Bytes) := do
  match ← scanLu s with
  | .eof => .ok (-1, v, [])
  | .fail t => .ok (0, v, t)
  | .got r s =>
    match ← scanLu s with
    | .eof => .ok (1, { v with r := some r }, [])
    | .fail t => .ok (1, { v with r := some r }, t)
    | .got c s =>
      match ← scanLg conv s with
      | .eof => .ok (2, { v with r := some r, c := some c }, [])
      | .fail t => .ok (2, { v with r := some r, c := some c }, t)
      | .got x s => .ok (3, ⟨some r, some c, some x⟩, skipWs s)

/-- The counting loop of a symmetric file, at most `n` turns — input.h:88-99. -/
def mmCount (conv : Bytes → T) : Nat → MmVars T → Nat → Bytes → C (Nat × MmVars T)
  | 0, v, counter, _ => .ok (counter, v)
  | n + 1, v, counter, s => do
    let e ← scanEntry conv v s
    if e.1 = -1 then .ok (counter, e.2.1)
    else
      match e.2.1.r, e.2.1.c with
      | some r, some c => mmCount conv n e.2.1 (if r = c then counter + 1 else counter + 2) e.2.2
      | _, _ => .error .uninit

/-- A number converted to `int`: modulo 2^32, from -2^31 on (as gcc defines it). -/
def toInt32 (n : Nat) : Int := if n % 2 ^ 32 < 2 ^ 31 then ((n % 2 ^ 32 : Nat) : Int) else ((n % 2 ^ 32 : Nat) : Int) - 2 ^ 32

/-- An `int` converted to `IT`. -/
def toIdx (M : Nat) (z : Int) : Nat := (z % (M : Int)).toNat

/-- `(IT) (r-1)` of an `unsigned long` — input.h:115, 120. -/
def fromOne (M r : Nat) : Nat := ((r + (2 ^ 64 - 1)) % 2 ^ 64) % M

/-- `set_point` — generic/coo.h:14-20. -/
def CooA.setPoint (A : CooA T) (i row col : Nat) (v : T) : C (CooA T) := do
  let rb ← A.row.put i row
  let cb ← A.col.put i col
  let vb ← A.val.put i v
  .ok { A with row := rb, col := cb, val := vb }

/-- The reading loop — input.h:109-123.  `n` is `nnz` as an index; `i` never exceeds it without an
out-of-bounds store, so it does not wrap; one turn per value of `i` at most, so `fuel = n + 1` is
enough. -/
def mmLoop (M : Nat) (conv : Bytes → T) (sym : Bool) (n : Nat) : Nat → Nat → MmVars T → Bytes → CooA T → C (CooA T)
  | 0, _, _, _, _ => .error .budget
  | fuel + 1, i, v, s, A =>
    if i < n then do
      let e ← scanEntry conv v s
      if e.1 = -1 then .ok { A with nnz := some i }
      else
        match e.2.1.r, e.2.1.c, e.2.1.val with
        | some r, some c, some x => do
          let A ← A.setPoint i (fromOne M r) (fromOne M c) x
          if sym && r != c then
            let A ← A.setPoint (i + 1) (fromOne M c) (fromOne M r) x
            mmLoop M conv sym n fuel (i + 2) e.2.1 e.2.2 A
          else mmLoop M conv sym n fuel (i + 1) e.2.1 e.2.2 A
        | _, _, _ => .error .uninit
    else .ok A

/-- Allocation and the reading loop — input.h:105-123. -/
def mmEntries (M : Nat) (conv : Bytes → T) (sym : Bool) (nr nc nnz : Int) (v : MmVars T) (s : Bytes) : C (CooA T) :=
  let n := toIdx M nnz
  mmLoop M conv sym n (n + 1) 0 v s
    ⟨Buf.uninit n, Buf.uninit n, Buf.uninit n, some (toIdx M nr), some (toIdx M nc), some n⟩

/-- `read_mm_COO(A, filename)` — input.h:43-127.  `fuel` bounds the loop looking for the size line
only. -/
def readMmCoo (M : Nat) (conv : Bytes → T) (fuel : Nat) (fs : FS) (name : String) : C (Int × CooA T) :=
  match fs name with
  | none => .ok (-1, CooA.fresh)
  | some data => do
    let b ← mmReadBanner data
    if b.1 ≠ 0 then .ok (-2, CooA.fresh)
    else if b.2.1.data = 67 ∨ b.2.1.format ≠ 67 then .ok (-3, CooA.fresh)
    else
      let z ← mmReadSize fuel b.2.2
      if z.1 ≠ 0 then .ok (-4, CooA.fresh)
      else if b.2.1.symm = 83 then
        if -2 ^ 31 ≤ 2 * z.2.1.2.2 ∧ 2 * z.2.1.2.2 < 2 ^ 31 then do
          let k ← mmCount conv (toIdx M (2 * z.2.1.2.2)) ⟨none, none, none⟩ 0 z.2.2
          let A ← mmEntries M conv true z.2.1.1 z.2.1.2.1 (toInt32 k.1) k.2 z.2.2
          .ok (0, A)
        else .error .ub
      else do
        let A ← mmEntries M conv false z.2.1.1 z.2.1.2.1 z.2.1.2.2 ⟨none, none, none⟩ z.2.2
        .ok (0, A)

/-! ### Writing -/

/-- `%lu`. -/
def printLu (n : Nat) : Bytes :=
  if n < 10 then [UInt8.ofNat (48 + n)] else printLu (n / 10) ++ [UInt8.ofNat (48 + n % 10)]

/-- `%d`. -/
def printD (z : Int) : Bytes := if z < 0 then chars "-" ++ printLu z.natAbs else printLu z.natAbs

/-- A number rounded to six decimals, as `%f` prints it. -/
structure Fixed6 where
  neg : Bool
  int : Nat
  micro : Nat

/-- `k` digits, zeros in front. -/
def printPadded : Nat → Nat → Bytes
  | 0, _ => []
  | k + 1, n => printPadded k (n / 10) ++ [UInt8.ofNat (48 + n % 10)]

/-- `%f` of a finite number. -/
def printF (x : Fixed6) : Bytes :=
  (if x.neg then chars "-" else []) ++ printLu x.int ++ chars "." ++ printPadded 6 x.micro

/-- The line of one entry — output.h:64-69: 0-based to 1-based (in `unsigned long`). -/
def mmEntryLine (fmt : T → Fixed6) (e : Ent T) : Bytes :=
  printLu ((e.row + 1) % 2 ^ 64) ++ chars " " ++ printLu ((e.col + 1) % 2 ^ 64) ++ chars " " ++ printF (fmt e.val) ++ chars "\n"

/-- Everything `write_mm_COO` prints — output.h:50-70 with mm_io.c:585-684, 771-796. -/
def mmText {ε : Type} [NZ ε T] (fmt : T → Fixed6) (rows columns : Nat) (es : List ε) : Bytes :=
  chars "%%MatrixMarket matrix coordinate real general\n" ++
  (printD (toInt32 rows) ++ chars " " ++ printD (toInt32 columns) ++ chars " " ++ printD (toInt32 es.length) ++ chars "\n") ++
  es.flatMap (fun e => mmEntryLine fmt (NZ.toEnt e))

/-- `write_mm_COO(A, filename)` — output.h:33-75.  What `fprintf` returns is ignored. -/
def writeMmCoo {ε : Type} [NZ ε T] (fmt : T → Fixed6) (d : Disk) (fs : FS) (name : String)
    (rows columns : Nat) (es : List ε) : Int × FS :=
  if d.opens name then (0, fs.set name (d.close ((mmText fmt rows columns es).take d.room)))
  else (-1, fs)

/-! ### Dispatch on the file name -/

/-- `string_ends_with(str, suffix)` — src/common.cpp:70-79, for lengths that fit an `int`. -/
def stringEndsWith (str suffix : List Char) : Bool :=
  decide (str.length ≥ suffix.length) && (str.drop (str.length - suffix.length) == suffix)

/-- `read_COO(A, filename)` — input.h:333-346. -/
def readCoo (w : Nat) (cv : Codec T) (conv : Bytes → T) (fuel : Nat) (fs : FS) (name : String) : C (Int × CooA T) :=
  if stringEndsWith name.toList ".bin".toList then readBinCoo w cv fs name
  else if stringEndsWith name.toList ".mtx".toList then readMmCoo (256 ^ w) conv fuel fs name
  else .ok (-1, CooA.fresh)

end Gsb
