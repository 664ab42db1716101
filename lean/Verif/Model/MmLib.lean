import Verif.Model.IoMm
import Verif.Spec.MmLib
/-
The rest of the bundled Matrix Market library, dep/mm_io/mm_io.c.  Conventions as in Model/IoMm.lean:
a stream open for reading is the bytes not read yet; `conv` is what `strtod` makes of a decimal
numeral; `int` has 32 bits.  `fmt` stands for the digits `%.16g` chooses for a finite number.
`malloc` does not fail; of a negative size it gives an array without usable elements.
-/
namespace Gsb
variable {T : Type}

/-- `mm_is_valid` — mm_io.c:11-51. -/
def mmIsValid (t : TypeCode) : Bool :=
  if !(t.object == 77) then false
  else if t.format == 65 && t.data == 80 then false
  else if t.data == 82 && t.symm == 72 then false
  else if t.data == 80 && (t.symm == 72 || t.symm == 75) then false
  else true

/-- `mm_typecode_to_str` with `mm_strdup` — mm_io.c:561-658.  `none`: NULL.  For an object that is not a
matrix `types[0]` is never set, and printing it reads an indeterminate pointer. -/
def mmTypecodeToStr (t : TypeCode) : C (Option Bytes) :=
  let w0 := if t.object = 77 then some (chars "matrix") else none
  let w1 := if t.format = 67 then some (chars "coordinate") else if t.format = 65 then some (chars "array") else none
  match w1 with
  | none => .ok none
  | some w1 =>
    let w2 := if t.data = 82 then some (chars "real") else if t.data = 67 then some (chars "complex")
      else if t.data = 80 then some (chars "pattern") else if t.data = 73 then some (chars "integer") else none
    match w2 with
    | none => .ok none
    | some w2 =>
      let w3 := if t.symm = 71 then some (chars "general") else if t.symm = 83 then some (chars "symmetric")
        else if t.symm = 72 then some (chars "hermitian") else if t.symm = 75 then some (chars "skew-symmetric") else none
      match w3 with
      | none => .ok none
      | some w3 =>
        match w0 with
        | none => .error .uninit
        | some w0 => .ok (some (w0 ++ chars " " ++ w1 ++ chars " " ++ w2 ++ chars " " ++ w3))

/-- `fprintf` to a stream that takes `room` bytes in all and has `out` already: what it returns (the
number of characters, or something negative) and what the stream has then. -/
def fprintfTo (room : Nat) (out text : Bytes) : Int × Bytes :=
  if out.length + text.length ≤ room then ((text.length : Int), out ++ text) else (-1, (out ++ text).take room)

/-- `%s` of the result of `mm_typecode_to_str`; a null pointer is undefined behaviour. -/
def strArg : Option Bytes → C Bytes
  | none => .error .ub
  | some s => .ok s

/-- `mm_write_banner` — mm_io.c:661-687. -/
def mmWriteBanner (room : Nat) (out : Bytes) (t : TypeCode) : C (Nat × Bytes) := do
  let s ← strArg (← mmTypecodeToStr t)
  let r := fprintfTo room out (chars "%%MatrixMarket" ++ chars " " ++ s ++ chars "\n")
  .ok (if r.1 ≠ 2 then 17 else 0, r.2)

/-- `mm_write_mtx_array_size` — mm_io.c:690-707. -/
def mmWriteArraySize (room : Nat) (out : Bytes) (m n : Int) : Nat × Bytes :=
  let r := fprintfTo room out (printD m ++ chars " " ++ printD n ++ chars "\n")
  (if r.1 ≠ 2 then 17 else 0, r.2)

/-- `mm_write_mtx_crd_size` — mm_io.c:771-796. -/
def mmWriteCrdSize (room : Nat) (out : Bytes) (m n nz : Int) : Nat × Bytes :=
  let r := fprintfTo room out (printD m ++ chars " " ++ printD n ++ chars " " ++ printD nz ++ chars "\n")
  (if r.1 ≠ 3 then 17 else 0, r.2)

/-- `"%d %d"`: as `scanThreeD`. -/
def scanTwoD (v : Int × Int) (s : Bytes) : C (Int × (Int × Int) × Bytes) := do
  match ← scanD s with
  | .eof => .ok (-1, v, [])
  | .fail r => .ok (0, v, r)
  | .got a s =>
    match ← scanD s with
    | .eof => .ok (1, (a, v.2), [])
    | .fail r => .ok (1, (a, v.2), r)
    | .got b s => .ok (2, (a, b), s)

/-- `do … while (num_items_read != 2)` — mm_io.c:219-227. -/
def arraySizeLoop : Nat → Int × Int → Bytes → C (Nat × (Int × Int) × Bytes)
  | 0, _, _ => .error .budget
  | fuel + 1, v, s => do
    let r ← scanTwoD v s
    if r.1 = -1 then .ok (12, r.2)
    else if r.1 = 2 then .ok (0, r.2)
    else arraySizeLoop fuel r.2.1 r.2.2

/-- `mm_read_mtx_array_size` — mm_io.c:169-230. -/
def mmReadArraySize (fuel : Nat) (s : Bytes) : C (Nat × (Int × Int) × Bytes) := do
  match ← skipComments (s.length + 1) s with
  | none => .ok (12, (0, 0), [])
  | some (line, rest) =>
    let r ← scanTwoD (0, 0) (cstr line)
    if r.1 = 2 then .ok (0, r.2.1, rest)
    else arraySizeLoop fuel r.2.1 rest

/-- The arrays `I`, `J`, `val`. -/
structure CrdA (T : Type) where
  I : Buf Int
  J : Buf Int
  val : Buf T

/-- An argument of `fscanf`: `&I[i]`, `&J[i]` for `%d`, `&val[i]` for `%lg`. -/
inductive Slot where
  | I (i : Nat)
  | J (i : Nat)
  | V (i : Nat)

/-- One conversion and its store. -/
def scanSlot (conv : Bytes → T) (A : CrdA T) (s : Bytes) : Slot → C (ScanRes (CrdA T))
  | .I i => do
    match ← scanD s with
    | .eof => .ok .eof
    | .fail r => .ok (.fail r)
    | .got z s => do
      let b ← A.I.put i z
      .ok (.got { A with I := b } s)
  | .J i => do
    match ← scanD s with
    | .eof => .ok .eof
    | .fail r => .ok (.fail r)
    | .got z s => do
      let b ← A.J.put i z
      .ok (.got { A with J := b } s)
  | .V i => do
    match ← scanLg conv s with
    | .eof => .ok .eof
    | .fail r => .ok (.fail r)
    | .got x s => do
      let b ← A.val.put i x
      .ok (.got { A with val := b } s)

/-- `fscanf` with a format of `%d` and `%lg` separated by spaces; `k`: conversions done.  Result: the
value returned (-1 is EOF), arrays, stream. -/
def scanInto (conv : Bytes → T) : List Slot → Int → CrdA T → Bytes → C (Int × CrdA T × Bytes)
  | [], k, A, s => .ok (k, A, s)
  | sl :: sls, k, A, s => do
    match ← scanSlot conv A s sl with
    | .eof => .ok (if k = 0 then -1 else k, A, [])
    | .fail r => .ok (k, A, r)
    | .got A s => scanInto conv sls (k + 1) A s

/-- `"%d %d %lg %lg"` — mm_io.c:338, 385. -/
def scanComplex (conv : Bytes → T) (i : Nat) (A : CrdA T) (s : Bytes) : C (Int × CrdA T × Bytes) :=
  scanInto conv [.I i, .J i, .V (2 * i), .V (2 * i + 1)] 0 A s

/-- `"%d %d %lg\n"` — mm_io.c:345, 390, 548. -/
def scanReal (conv : Bytes → T) (i : Nat) (A : CrdA T) (s : Bytes) : C (Int × CrdA T × Bytes) := do
  let r ← scanInto conv [.I i, .J i, .V i] 0 A s
  .ok (r.1, r.2.1, if r.1 = 3 then skipWs r.2.2 else r.2.2)

/-- `"%d %d"` — mm_io.c:354, 397. -/
def scanPattern (conv : Bytes → T) (i : Nat) (A : CrdA T) (s : Bytes) : C (Int × CrdA T × Bytes) :=
  scanInto conv [.I i, .J i] 0 A s

/-- `for (i=0; i<nz; i++) if (fscanf(...) != want) return MM_PREMATURE_EOF;` — mm_io.c:337-355; `n` turns left. -/
def crdLoop (scan : Nat → CrdA T → Bytes → C (Int × CrdA T × Bytes)) (want : Int) : Nat → Nat → CrdA T → Bytes → C (Nat × CrdA T × Bytes)
  | 0, _, A, s => .ok (0, A, s)
  | n + 1, i, A, s => do
    let r ← scan i A s
    if r.1 ≠ want then .ok (12, r.2)
    else crdLoop scan want n (i + 1) r.2.1 r.2.2

/-- `mm_read_mtx_crd_data` — mm_io.c:311-362. -/
def mmReadCrdData (conv : Bytes → T) (t : TypeCode) (nz : Int) (A : CrdA T) (s : Bytes) : C (Nat × CrdA T × Bytes) :=
  if t.data = 67 then crdLoop (scanComplex conv) 4 nz.toNat 0 A s
  else if t.data = 82 then crdLoop (scanReal conv) 3 nz.toNat 0 A s
  else if t.data = 80 then crdLoop (scanPattern conv) 2 nz.toNat 0 A s
  else .ok (15, A, s)

/-- `mm_read_mtx_crd_entry` — mm_io.c:365-404.  `*I`, `*J` are the arrays of one element, `*real`, `*imag`
the two elements of `val`. -/
def mmReadCrdEntry (conv : Bytes → T) (t : TypeCode) (A : CrdA T) (s : Bytes) : C (Nat × CrdA T × Bytes) :=
  if t.data = 67 then do
    let r ← scanComplex conv 0 A s
    .ok (if r.1 ≠ 4 then 12 else 0, r.2)
  else if t.data = 82 then do
    let r ← scanReal conv 0 A s
    .ok (if r.1 ≠ 3 then 12 else 0, r.2)
  else if t.data = 80 then do
    let r ← scanPattern conv 0 A s
    .ok (if r.1 ≠ 2 then 12 else 0, r.2)
  else .ok (15, A, s)

/-- What `mm_read_mtx_crd` returns and has stored through its arguments; `none`: nothing stored.  `val`:
`some none` is NULL. -/
structure MmCrd (T : Type) where
  ret : Nat
  code : Option TypeCode
  size : Option (Int × Int × Int)
  ij : Option (Buf Int × Buf Int)
  val : Option (Option (Buf T))

/-- `mm_read_mtx_crd` — mm_io.c:233-308. -/
def mmReadMtxCrd (conv : Bytes → T) (fuel : Nat) (fs : FS) (stdin : Bytes) (name : String) : C (MmCrd T) :=
  match (if name = "stdin" then some stdin else fs name) with
  | none => .ok ⟨11, none, none, none, none⟩
  | some data => do
    let b ← mmReadBanner data
    if b.1 ≠ 0 then .ok ⟨b.1, some b.2.1, none, none, none⟩
    else if !(mmIsValid b.2.1 && b.2.1.format == 67 && b.2.1.object == 77) then .ok ⟨15, some b.2.1, none, none, none⟩
    else do
      let z ← mmReadSize fuel b.2.2
      if z.1 ≠ 0 then .ok ⟨z.1, some b.2.1, some z.2.1, none, none⟩
      else
        let nz := z.2.1.2.2
        let I := Buf.uninit (α := Int) nz.toNat
        let J := Buf.uninit (α := Int) nz.toNat
        if b.2.1.data = 67 then
          if -2 ^ 31 ≤ nz * 2 ∧ nz * 2 < 2 ^ 31 then do
            let r ← mmReadCrdData conv b.2.1 nz ⟨I, J, Buf.uninit (nz * 2).toNat⟩ z.2.2
            .ok ⟨r.1, some b.2.1, some z.2.1, some (r.2.1.I, r.2.1.J), some (some r.2.1.val)⟩
          else .error .ub
        else if b.2.1.data = 82 then do
          let r ← mmReadCrdData conv b.2.1 nz ⟨I, J, Buf.uninit nz.toNat⟩ z.2.2
          .ok ⟨r.1, some b.2.1, some z.2.1, some (r.2.1.I, r.2.1.J), some (some r.2.1.val)⟩
        else if b.2.1.data = 80 then do
          let r ← mmReadCrdData conv b.2.1 nz ⟨I, J, Buf.uninit 0⟩ z.2.2
          .ok ⟨r.1, some b.2.1, some z.2.1, some (r.2.1.I, r.2.1.J), some none⟩
        else .ok ⟨0, some b.2.1, some z.2.1, some (I, J), some none⟩

/-- `I[i]--` of an `int` — mm_io.c:552-553. -/
def decr (b : Buf Int) (i : Nat) : C (Buf Int) := do
  let z ← b.get i
  if -2 ^ 31 < z then b.put i (z - 1) else .error .ub

/-- The loop of `mm_read_unsymmetric_sparse` — mm_io.c:546-554: what `fscanf` returns is ignored. -/
def unsymLoop (conv : Bytes → T) : Nat → Nat → CrdA T → Bytes → C (CrdA T)
  | 0, _, A, _ => .ok A
  | n + 1, i, A, s => do
    let r ← scanReal conv i A s
    let I ← decr r.2.1.I i
    let J ← decr r.2.1.J i
    unsymLoop conv n (i + 1) { r.2.1 with I := I, J := J } r.2.2

/-- `mm_read_unsymmetric_sparse` — mm_io.c:473-558: value returned, and the sizes and arrays if they are
stored.  The messages are not modelled; the type code printed in one of them is that of a banner that
has been read. -/
def mmReadUnsym (conv : Bytes → T) (fuel : Nat) (fs : FS) (name : String) : C (Int × Option ((Int × Int × Int) × CrdA T)) :=
  match fs name with
  | none => .ok (-1, none)
  | some data => do
    let b ← mmReadBanner data
    if b.1 ≠ 0 then .ok (-1, none)
    else if !(b.2.1.data == 82 && b.2.1.object == 77 && b.2.1.format == 67) then .ok (-1, none)
    else do
      let z ← mmReadSize fuel b.2.2
      if z.1 ≠ 0 then .ok (-1, none)
      else do
        let n := z.2.1.2.2.toNat
        let A ← unsymLoop conv n 0 ⟨Buf.uninit n, Buf.uninit n, Buf.uninit n⟩ z.2.2
        .ok (0, some (z.2.1, A))

/-- `%20.16g` of a finite number: at least 20 characters, spaces in front. -/
def printG (v : DecText) : Bytes := List.replicate (20 - v.text.length) 32 ++ v.text

/-- The lines of the entries — mm_io.c:745-757; `line` prints line `i`. -/
def crdLines (line : Nat → C Bytes) (n : Nat) : C Bytes :=
  forLoop 0 n [] (fun i out => do
    let l ← line i
    .ok (out ++ l))

/-- Everything `mm_write_mtx_crd` prints, and what it returns — mm_io.c:735-768. -/
def mmCrdText (fmt : T → DecText) (t : TypeCode) (m n nz : Int) (A : CrdA T) : C (Nat × Bytes) := do
  let s ← strArg (← mmTypecodeToStr t)
  let head := chars "%%MatrixMarket" ++ chars " " ++ s ++ chars "\n" ++
    (printD m ++ chars " " ++ printD n ++ chars " " ++ printD nz ++ chars "\n")
  if t.data = 80 then do
    let body ← crdLines (fun i => do
      let r ← A.I.get i
      let c ← A.J.get i
      .ok (printD r ++ chars " " ++ printD c ++ chars "\n")) nz.toNat
    .ok (0, head ++ body)
  else if t.data = 82 then do
    let body ← crdLines (fun i => do
      let r ← A.I.get i
      let c ← A.J.get i
      let v ← A.val.get i
      .ok (printD r ++ chars " " ++ printD c ++ chars " " ++ printG (fmt v) ++ chars "\n")) nz.toNat
    .ok (0, head ++ body)
  else if t.data = 67 then do
    let body ← crdLines (fun i => do
      let r ← A.I.get i
      let c ← A.J.get i
      let v ← A.val.get (2 * i)
      let w ← A.val.get (2 * i + 1)
      .ok (printD r ++ chars " " ++ printD c ++ chars " " ++ printG (fmt v) ++ chars " " ++ printG (fmt w) ++ chars "\n")) nz.toNat
    .ok (0, head ++ body)
  else .ok (15, head)

/-- `mm_write_mtx_crd` — mm_io.c:710-768: value returned, files, what is on the standard output.  What
`fprintf` returns is ignored. -/
def mmWriteMtxCrd (fmt : T → DecText) (d : Disk) (fs : FS) (name : String) (m n nz : Int) (A : CrdA T) (t : TypeCode) :
    C (Nat × FS × Bytes) :=
  if name = "stdout" then do
    let r ← mmCrdText fmt t m n nz A
    .ok (r.1, fs, r.2)
  else if d.opens name then do
    let r ← mmCrdText fmt t m n nz A
    .ok (r.1, fs.set name (d.close (r.2.take d.room)), [])
  else .ok (17, fs, [])

end Gsb
