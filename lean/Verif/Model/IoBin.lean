import Verif.Model.File
import Verif.Model.Csr
/-
Models of the binary readers and writers of include/io/input.h and include/io/output.h.
`w` is `sizeof(IT)`, so the index type has `256 ^ w` values; `cv` is the layout of `T`.
The result of a reader is its return value and the matrix it leaves behind.
-/
namespace Gsb
variable {T : Type}

/-- A COO matrix as a reader leaves it: `Coo` (coo.1.h:13-19), and the fields of the element
arrays of `Coo2` and `Coo3` (coo.2.h:13-16, coo.3.h:12-17), field by field. -/
structure CooA (T : Type) where
  row : Buf Nat
  col : Buf Nat
  val : Buf T
  rows : Option Nat
  columns : Option Nat
  nnz : Option Nat

/-- A declared but uninitialised matrix. -/
def CooA.fresh : CooA T := ⟨Buf.uninit 0, Buf.uninit 0, Buf.uninit 0, none, none, none⟩

/-- Entry `i` as the getters return it — coo.1.h:44-46, coo.2.h:21-23, coo.3.h:21-23. -/
def CooA.ent (A : CooA T) (i : Nat) : C (Ent T) := do
  let r ← A.row.get i
  let c ← A.col.get i
  let v ← A.val.get i
  .ok ⟨r, c, v⟩

/-- The entries as a user reads them back. -/
def CooA.ents (A : CooA T) : C (List (Ent T)) :=
  match A.nnz with
  | none => .error .uninit
  | some n => (List.range n).mapM A.ent

/-- A loop `for (i=0; i<n; i++) { counter += fread(&buffer, sizeof, 1, f); A->set_…(i, buffer); }` —
input.h:223-227, 240-244, 256-260, 301-317.  State: counter, buffer, stream, array. -/
def readLoop {α : Type} (M : Nat) (c : Codec α) (n : Nat) (s : Nat × Option α × In × Buf α) :
    C (Nat × Option α × In × Buf α) :=
  forLoop 0 n s fun i s => do
    let r := fread1 c s.2.2.1 s.2.1
    let a ← s.2.2.2.putOpt i r.2.1
    .ok (addM M s.1 r.1, r.2.1, r.2.2, a)

/-- The part of `read_bin_COO(A, filename)` after the header — input.h:296-327. -/
def readBinCooData (w : Nat) (cv : Codec T) (f : In) (rows columns : Option Nat) (nnz : Nat) (buffer : Option Nat) :
    C (Int × CooA T) := do
  let s1 ← readLoop (256 ^ w) (idx w) nnz (0, buffer, f, Buf.uninit nnz)
  let s2 ← readLoop (256 ^ w) (idx w) nnz (s1.1, s1.2.1, s1.2.2.1, Buf.uninit nnz)
  let s3 ← readLoop (256 ^ w) cv nnz (s2.1, none, s2.2.2.1, Buf.uninit nnz)
  .ok (if s3.1 ≠ mulM (256 ^ w) 3 nnz then -4 else 0,
    ⟨s1.2.2.2, s2.2.2.2, s3.2.2.2, rows, columns, some nnz⟩)

/-- `read_bin_COO(A, filename)` — input.h:273-328.  A field read from a short header is
indeterminate, but then the function returns -2 before using it. -/
def readBinCoo (w : Nat) (cv : Codec T) (fs : FS) (name : String) : C (Int × CooA T) :=
  match fs name with
  | none => .ok (-1, CooA.fresh)
  | some data =>
    let r1 := fread1 (idx w) ⟨data, 0⟩ none
    let r2 := fread1 (idx w) r1.2.2 none
    let r3 := fread1 (idx w) r2.2.2 none
    if addM (256 ^ w) (addM (256 ^ w) r1.1 r2.1) r3.1 ≠ 3 then
      .ok (-2, { (CooA.fresh : CooA T) with rows := r1.2.1, columns := r2.2.1, nnz := r3.2.1 })
    else
      match r3.2.1 with
      | none => .error .uninit
      | some nnz => readBinCooData w cv r3.2.2 r1.2.1 r2.2.1 nnz none

/-- `write_bin_COO(A, filename)` — output.h:136-174: the return value and the files afterwards. -/
def writeBinCoo {ε : Type} [NZ ε T] (w : Nat) (cv : Codec T) (d : Disk) (fs : FS) (name : String)
    (rows columns : Nat) (es : List ε) : Int × FS :=
  if d.opens name then
    let o := fwriteEach d (idx w) [rows, columns, es.length] []
    let o := fwriteEach d (idx w) (es.map (fun e => (NZ.toEnt e).row)) o
    let o := fwriteEach d (idx w) (es.map (fun e => (NZ.toEnt e).col)) o
    let o := fwriteEach d cv (es.map (fun e => (NZ.toEnt e).val)) o
    (0, fs.set name (d.close o))
  else (-1, fs)

/-! ### Arrays -/

/-- `get_file_size` — src/common.cpp:84-99; `none` stands for `exit(1)`. -/
def getFileSize (fs : FS) (name : String) : Option Nat := (fs name).map List.length

/-- `read_bin_array(filename, data, num)` — input.h:16-34.  `none`: the process exited.
`malloc0` says whether `malloc(0)` returns a non-null pointer; larger requests succeed. -/
def readBinArray {α : Type} (c : Codec α) (malloc0 : Bool) (fs : FS) (name : String) :
    C (Option (Int × Buf α × Nat)) :=
  match getFileSize fs name with
  | none => .ok none
  | some bytes => do
    let size ← cdiv bytes c.size
    if size = 0 ∧ malloc0 = false then .ok (some (-1, Buf.uninit 0, size))
    else
      match fs name with
      | none => .ok (some (-2, Buf.uninit size, size))
      | some data => do
        let r ← freadArr c size 0 ⟨data, 0⟩ (Buf.uninit size)
        .ok (some (if r.1 < size then -3 else 0, r.2.2, size))

/-- `write_bin_array(filename, data, num)` — output.h:12-26.  On a short write it returns without
closing the stream; what the disk has by then is at most what was accepted. -/
def writeBinArray {α : Type} (c : Codec α) (d : Disk) (fs : FS) (name : String) (l : List α) : Int × FS :=
  if d.opens name then
    let r := fwriteArr d c l []
    (if r.1 < l.length then -2 else 0, fs.set name (d.close r.2))
  else (-1, fs)

/-! ### Three files -/

/-- A stream closed by one of the three-file readers. -/
inductive Handle where
  | row
  | col
  | val
  deriving DecidableEq, Repr

/-- What a three-file reader does: exits in `get_file_size`, or returns with a matrix after closing
the listed streams in this order. -/
structure Read3 (T : Type) where
  ret : Int
  mat : CooA T
  closed : List Handle

/-- `max = 0; for (i=0; i<size; i++) if (I[i] > max) max = I[i];` — input.h:143, 159-161, 174-176. -/
def maxLoop (n : Nat) (b : Buf Nat) : C Nat :=
  forLoop 0 n 0 fun i m => do
    let a ← b.get i
    .ok (if a > m then a else m)

/-- `read_bin_COO(Coo<T,IT,IT>*, rows, columns, values)` — input.h:135-193.  `(IT) get_file_size(…)`
is converted before the division. -/
def readBinCoo3Coo (w : Nat) (cv : Codec T) (fs : FS) (frow fcol fval : String) : C (Option (Read3 T)) :=
  match getFileSize fs fval with
  | none => .ok none
  | some bytes => do
    let size ← cdiv (bytes % 256 ^ w) cv.size
    let A : CooA T := { (CooA.fresh : CooA T) with row := Buf.uninit size, col := Buf.uninit size, val := Buf.uninit size, nnz := some size }
    match fs frow with
    | none => .ok (some ⟨-1, A, []⟩)
    | some dr => do
      let r ← freadArr (idx w) size 0 ⟨dr, 0⟩ A.row
      let mr ← maxLoop size r.2.2
      match fs fcol with
      | none => .ok (some ⟨-1, { A with row := r.2.2 }, [.row]⟩)
      | some dc => do
        let c ← freadArr (idx w) size 0 ⟨dc, 0⟩ A.col
        let mc ← maxLoop size c.2.2
        match fs fval with
        | none => .error .oob  -- `fv == NULL` is passed to `fread` (line 182 tests `fc`)
        | some dv => do
          let v ← freadArr cv size 0 ⟨dv, 0⟩ A.val
          .ok (some ⟨0, ⟨r.2.2, c.2.2, v.2.2, some (addM (256 ^ w) mr 1), some (addM (256 ^ w) mc 1), some size⟩,
            [.row, .col, .col]⟩)

/-- The generic `read_bin_COO(COO<T,IT>*, rows, columns, values)` for `Coo2`, `Coo3` — input.h:201-268.
`counter`, `max_row`, `max_col` are never initialised: the counter is never used, and the two others
are used only for `A->rows = max_row + 1; A->columns = max_col + 1`, so these are indeterminate. -/
def readBinCoo3Gen (w : Nat) (cv : Codec T) (fs : FS) (frow fcol fval : String) : C (Option (Read3 T)) :=
  match getFileSize fs fval with
  | none => .ok none
  | some bytes => do
    let size ← cdiv (bytes % 256 ^ w) cv.size
    let A : CooA T := { (CooA.fresh : CooA T) with row := Buf.uninit size, col := Buf.uninit size, val := Buf.uninit size, nnz := some size }
    match fs frow with
    | none => .ok (some ⟨-1, A, []⟩)
    | some dr => do
      let r ← readLoop (256 ^ w) (idx w) size (0, none, ⟨dr, 0⟩, A.row)
      match fs fcol with
      | none => .ok (some ⟨-1, { A with row := r.2.2.2 }, [.row]⟩)
      | some dc => do
        let c ← readLoop (256 ^ w) (idx w) size (0, r.2.1, ⟨dc, 0⟩, A.col)
        match fs fval with
        | none => .ok (some ⟨-1, { A with row := r.2.2.2, col := c.2.2.2 }, [.row, .col]⟩)
        | some dv => do
          let v ← readLoop (256 ^ w) cv size (0, none, ⟨dv, 0⟩, A.val)
          .ok (some ⟨0, ⟨r.2.2.2, c.2.2.2, v.2.2.2, none, none, some size⟩, [.row, .col, .col]⟩)

/-- The three-file `write_bin_COO` — output.h:83-130, for three different names.  All files that can
be opened are emptied even if another cannot. -/
def writeBinCoo3 {ε : Type} [NZ ε T] (w : Nat) (cv : Codec T) (d : Disk) (fs : FS) (frow fcol fval : String)
    (es : List ε) : Int × FS :=
  let opened (fs : FS) (n : String) : FS := if d.opens n then fs.set n [] else fs
  let fs := opened (opened (opened fs fval) frow) fcol
  if d.opens fval ∧ d.opens frow ∧ d.opens fcol then
    let r := fwriteEach d (idx w) (es.map (fun e => (NZ.toEnt e).row)) []
    let c := fwriteEach d (idx w) (es.map (fun e => (NZ.toEnt e).col)) []
    let v := fwriteEach d cv (es.map (fun e => (NZ.toEnt e).val)) []
    (0, ((fs.set frow (d.close r)).set fcol (d.close c)).set fval (d.close v))
  else (-1, fs)

/-! ### CSR -/

/-- The loop reading the row indices — input.h:379-382.  State: `current_row`, stream, counters. -/
def readCsrRows (w nnz : Nat) (s : Option Nat × In × Buf Nat) : C (Option Nat × In × Buf Nat) :=
  forLoop 0 nnz s fun _ s => do
    let r := fread1 (idx w) s.2.1 s.1
    match r.2.1 with
    | none => .error .uninit
    | some cur => do
      let rp ← incr (256 ^ w) s.2.2 (addM (256 ^ w) cur 1)
      .ok (some cur, r.2.2, rp)

/-- `read_bin_CSR(Csr*, filename)` — input.h:353-397.  No count returned by `fread` is looked at. -/
def readBinCsr (w : Nat) (cv : Codec T) (fs : FS) (name : String) : C (Int × Option (Csr T)) :=
  match fs name with
  | none => .ok (-1, none)
  | some data =>
    let r1 := fread1 (idx w) ⟨data, 0⟩ none
    let r2 := fread1 (idx w) r1.2.2 none
    let r3 := fread1 (idx w) r2.2.2 none
    match r1.2.1, r2.2.1, r3.2.1 with
    | some rows, some columns, some nnz => do
      let s ← readCsrRows w nnz (none, r3.2.2, Buf.filled (addM (256 ^ w) rows 1) 0)
      let c ← freadArr (idx w) nnz 0 s.2.1 (Buf.uninit nnz)
      let v ← freadArr cv nnz 0 c.2.1 (Buf.uninit nnz)
      let rp ← prefixSum (256 ^ w) s.2.2 rows
      let t ← rp.get rows
      cassert (t == nnz)
      .ok (0, some ⟨v.2.2, c.2.2, rp, rows, columns⟩)
    | _, _, _ => .error .uninit

end Gsb
