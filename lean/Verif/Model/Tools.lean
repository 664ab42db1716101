import Verif.Model.IoBlocked
import Verif.Model.IoMm
import Verif.Model.Permute
import Verif.Model.Broken
/-
Models of the command line tools of src/tools.  A run ends with an exit status and the files there are
then.  All tools use 32-bit indices (`INDEXTYPE uint32_t`).  What they print is not modelled, and
`malloc` of more than 0 bytes succeeds.
-/
namespace Gsb
variable {T : Type}

/-- Exit status and the files afterwards. -/
abbrev Exit := Nat × FS

/-- `strncpy(buf, name, limit); strcat(buf, suffix);` with `char buf[cap]` — one2zero.c:24-25 and the
like.  A name of `limit` bytes or more leaves `buf` without a terminator, so that `strcat` reads and
writes beyond the copied part; a result that does not fit overflows `buf`. -/
def outName (cap limit : Nat) (name suffix : String) : C String :=
  if name.utf8ByteSize < limit ∧ name.utf8ByteSize + suffix.utf8ByteSize + 1 ≤ cap then .ok (name ++ suffix)
  else .error .ub

/-! ### one2zero -/

/-- "Convert and check" — one2zero.c:45-53; `none`: a zero was found. -/
def decrementAll (n : Nat) (b : Buf Nat) : C (Option (Buf Nat)) :=
  forLoop 0 n (some b) fun j s =>
    match s with
    | none => .ok none
    | some b => do
      let v ← b.get j
      if v = 0 then .ok none
      else do
        let b ← b.put j (subM (2 ^ 32) v 1)
        .ok (some b)

/-- The body of the loop over the arguments — one2zero.c:21-66; `some`: the program returns. -/
def one2zeroFile (d : Disk) (fs : FS) (name : String) : C (Option Nat × FS) := do
  let out ← outName 128 121 name ".zero"
  match fs name with
  | none => .ok (some 1, fs)
  | some data => do
    let n := data.length / 4 % 2 ^ 32
    let r ← freadArr (idx 4) n 0 ⟨data, 0⟩ (Buf.uninit n)
    match ← decrementAll n r.2.2 with
    | none => .ok (some 1, fs)
    | some b => do
      let l ← b.toList n
      if d.opens out then .ok (none, fs.set out (d.close (fwriteArr d (idx 4) l []).2))
      else .ok (some 1, fs)

/-- The loop over the arguments — one2zero.c:21-68. -/
def one2zeroLoop (d : Disk) : List String → FS → C Exit
  | [], fs => .ok (0, fs)
  | name :: rest, fs => do
    let r ← one2zeroFile d fs name
    match r.1 with
    | some code => .ok (code, r.2)
    | none => one2zeroLoop d rest r.2

/-- `main` of one2zero — one2zero.c:10-69; `args` is `argv[1] …`. -/
def one2zero (d : Disk) (fs : FS) (args : List String) : C Exit :=
  match args with
  | [] => .ok (1, fs)
  | _ => one2zeroLoop d args fs

/-! ### double2float -/

/-- `while (fread(&v, …) > 0) fwrite(&v_new, …)` — double2float.c:42-46.  State: the stream and the
bytes written.  Each round consumes a value, so as many rounds as there are bytes are enough. -/
def narrowLoop {D F : Type} (cd : Codec D) (cf : Codec F) (narrow : D → F) (d : Disk) : Nat → In → Bytes → C Bytes
  | 0, _, _ => .error .budget
  | k + 1, f, o =>
    let r := fread1 cd f none
    if r.1 > 0 then
      match r.2.1 with
      | none => .error .uninit
      | some v => narrowLoop cd cf narrow d k r.2.2 (fwrite1 d cf (narrow v) o).2
    else .ok o

/-- The body of the loop over the arguments — double2float.c:25-52.  Both files are opened before the
check, so the output is emptied even if there is no input. -/
def double2floatFile {D F : Type} (cd : Codec D) (cf : Codec F) (narrow : D → F) (d : Disk) (fs : FS) (name : String) :
    C (Option Nat × FS) := do
  let out ← outName 128 121 name ".float"
  let opened : FS := if d.opens out then fs.set out [] else fs
  match fs name with
  | none => .ok (some 1, opened)
  | some data =>
    if d.opens out then do
      let o ← narrowLoop cd cf narrow d (data.length + 1) ⟨data, 0⟩ []
      .ok (none, opened.set out (d.close o))
    else .ok (some 1, opened)

/-- double2float.c:25-53. -/
def double2floatLoop {D F : Type} (cd : Codec D) (cf : Codec F) (narrow : D → F) (d : Disk) : List String → FS → C Exit
  | [], fs => .ok (0, fs)
  | name :: rest, fs => do
    let r ← double2floatFile cd cf narrow d fs name
    match r.1 with
    | some code => .ok (code, r.2)
    | none => double2floatLoop cd cf narrow d rest r.2

/-- `main` of double2float — double2float.c:12-55.  `narrow` is the conversion `(float) v`. -/
def double2float {D F : Type} (cd : Codec D) (cf : Codec F) (narrow : D → F) (d : Disk) (fs : FS) (args : List String) : C Exit :=
  match args with
  | [] => .ok (1, fs)
  | _ => double2floatLoop cd cf narrow d args fs

/-! ### permute -/

/-- One index file — permute.cpp:50-73 and 77-100; `false`: the program returns 1.  `permute_indeces`
gets the number of indices converted to 32 bits; what `write_bin_array` returns is only printed. -/
def permuteFile (malloc0 : Bool) (d : Disk) (fs : FS) (perm : Buf Nat) (name : String) : C (Bool × FS) := do
  match ← readBinArray (idx 4) malloc0 fs name with
  | none => .ok (false, fs)
  | some r =>
    if r.1 < 0 then .ok (false, fs)
    else do
      let l ← r.2.1.toList r.2.2
      let l' ← permuteIndeces perm (l.take (r.2.2 % 2 ^ 32))
      let out ← outName 128 118 name ".permuted"
      .ok (true, (writeBinArray (idx 4) d fs out (l' ++ l.drop (r.2.2 % 2 ^ 32))).2)

/-- `main` of permute — permute.cpp:14-105; `inv` says whether it was compiled with `INVPERM`. -/
def permuteTool (inv malloc0 : Bool) (d : Disk) (fs : FS) (args : List String) : C Exit :=
  match args with
  | [frow, fcol, fperm] => do
    match ← readBinArray (idx 4) malloc0 fs fperm with
    | none => .ok (1, fs)
    | some p =>
      if p.1 < 0 then .ok (1, fs)
      else do
        let perm ← if inv then invertPermutation p.2.1 (p.2.2 % 2 ^ 32) else .ok p.2.1
        let c ← permuteFile malloc0 d fs perm fcol
        if c.1 then do
          let r ← permuteFile malloc0 d c.2 perm frow
          if r.1 then .ok (0, r.2) else .ok (1, r.2)
        else .ok (1, c.2)
  | _ => .ok (1, fs)

/-! ### convert -/

/-- What convert writes — convert.cpp:60-91, once the matrix has been read and sorted.  `A.rows` and
`A.columns` were never given a value by the reader; `gr` and `gc` are whatever they hold. -/
def convertWrite (cv : Codec T) (fmt : T → Fixed6) (d : Disk) (fs : FS) (gr gc : Nat) (out : String) (bin mtx : Bool)
    (es : List (Triplet T)) : C FS := do
  let fs ← if mtx then do
      let name ← outName 128 118 out ".mtx"
      .ok (writeMmCoo fmt d fs name gr gc es).2
    else .ok fs
  if bin then do
    let name ← outName 128 118 out ".bin"
    .ok (writeBinCoo 4 cv d fs name gr gc es).2
  else .ok fs

/-- convert.cpp:32-44: which formats are asked for. -/
def convertMode (mode : String) : Option (Bool × Bool) :=
  if mode = "bin" then some (true, false)
  else if mode = "mtx" then some (false, true)
  else if mode = "all" then some (true, true)
  else none

/-- `main` of convert — convert.cpp:21-95. -/
def convertTool (cv : Codec T) (fmt : T → Fixed6) (d : Disk) (fs : FS) (gr gc : Nat) (args : List String) : C Exit :=
  match args with
  | [frow, fcol, fval, out, mode] =>
    match convertMode mode with
    | none => .ok (1, fs)
    | some m => do
      match ← readBinCoo3Gen 4 cv fs frow fcol fval with
      | none => .ok (1, fs)
      | some r =>
        if r.ret < 0 then .ok (1, fs)
        else do
          let es ← r.mat.ents
          let es := sortTriplets es false
          let fs ← convertWrite cv fmt d fs (r.mat.rows.getD gr) (r.mat.columns.getD gc) out m.1 m.2 es
          .ok (0, fs)
  | _ => .ok (1, fs)

/-! ### convert_blocked -/

/-- The elements of a `Coo3` just read: `block` has no value yet; nothing reads it before
`calculate_block_id` sets it. -/
def asElements (es : List (Ent T)) : List (Element T) := es.map fun e => ⟨e.row, e.col, e.val, 0⟩

/-- The block sizes of a tool: `read_bin_array`, `size_to_offset` of `(INDEXTYPE) size` of them —
convert_blocked.cpp:34-60.  `none`: the program exits. -/
def readSizes (malloc0 : Bool) (fs : FS) (name : String) : C (Option (List Nat)) := do
  match ← readBinArray (idx 4) malloc0 fs name with
  | none => .ok none
  | some r =>
    if r.1 < 0 then .ok none
    else do
      let l ← r.2.1.toList r.2.2
      .ok (some (l.take (r.2.2 % 2 ^ 32)))

/-- `main` of convert_blocked — convert_blocked.cpp:22-106.  `A.rows` and `A.columns`, set from the
offsets at 58-59, are overwritten by the reader at 64 with values that were never assigned. -/
def convertBlockedTool (cv : Codec T) (malloc0 : Bool) (d : Disk) (fs : FS) (gr gc : Nat) (args : List String) : C Exit :=
  match args with
  | [frow, fcol, fval, fsizes, out] => do
    match ← readSizes malloc0 fs fsizes with
    | none => .ok (1, fs)
    | some sizes => do
      let off := sizeToOffset (2 ^ 32) sizes
      match ← readBinCoo3Gen 4 cv fs frow fcol fval with
      | none => .ok (1, fs)
      | some r =>
        if r.ret < 0 then .ok (1, fs)
        else do
          let es ← r.mat.ents
          let es ← calculateBlockId (2 ^ 32) (asElements es) off sizes.length off sizes.length
          let es := sortElementsBlocks es
          let n ← countBlocks (2 ^ 32) es
          .ok (0, (writeBinBlocked 4 cv d fs out (r.mat.rows.getD gr) (r.mat.columns.getD gc) sizes.length sizes.length n es).2)
  | _ => .ok (1, fs)

/-! ### expanded -/

/-- `main` of expanded — expanded.cpp:17-89.  What `read_bin_COO` returns is ignored; after a failure
`A.nnz` has no value.  `decimal` is `%lu`. -/
def expandedMain (cv : Codec T) (decimal : Nat → String) (malloc0 : Bool) (d : Disk) (fs : FS) (args : List String) : C Exit :=
  match args with
  | frow :: fcol :: fval :: fsizes :: out :: _ => do
    match ← readSizes malloc0 fs fsizes with
    | none => .ok (1, fs)
    | some sizes => do
      match ← readBinCoo3Gen 4 cv fs frow fcol fval with
      | none => .ok (1, fs)
      | some r =>
        if r.ret < 0 then .error .uninit
        else do
          let es ← r.mat.ents
          let t ← expandedTool (2 ^ 32) sizes (asElements es)
          let name ← outName 256 246 out (".exp" ++ decimal (expandBlockSize (2 ^ 32) sizes))
          .ok (0, (writeBinCoo 4 cv d fs name t.1 t.1 t.2).2)
  | _ => .ok (1, fs)

/-! ### prepare -/

/-- Where prepare keeps the permuted indices — prepare.cpp:18-19. -/
def tmpRows : String := "/tmp/csbr_prepare/rows"
@[inherit_doc tmpRows]
def tmpCols : String := "/tmp/csbr_prepare/cols"

/-- One index file of prepare — prepare.cpp:51-69 and 75-92: unlike permute, a failed write is an error. -/
def prepareIndeces (malloc0 : Bool) (d : Disk) (fs : FS) (perm : Buf Nat) (name out : String) : C (Bool × FS) := do
  match ← readBinArray (idx 4) malloc0 fs name with
  | none => .ok (false, fs)
  | some r =>
    if r.1 < 0 then .ok (false, fs)
    else do
      let l ← r.2.1.toList r.2.2
      let l' ← permuteIndeces perm (l.take (r.2.2 % 2 ^ 32))
      let t := writeBinArray (idx 4) d fs out (l' ++ l.drop (r.2.2 % 2 ^ 32))
      if t.1 < 0 then .ok (false, t.2) else .ok (true, t.2)

/-- The four output files — prepare.cpp:129-224: by rows, by blocks, by columns (with the dimensions
the reader left, `gr` and `gc`), and expanded.  `es` has its block ids. -/
def prepareOutputs (cv : Codec T) (decimal : Nat → String) (d : Disk) (fs : FS) (gr gc : Nat) (out : String) (sizes : List Nat)
    (es : List (Element T)) : C FS := do
  let es := sortTriplets es true
  let name ← outName 256 246 out ".row"
  let fs := (writeBinCoo 4 cv d fs name gr gc es).2
  let es := sortElementsBlocks es
  let n ← countBlocks (2 ^ 32) es
  let name ← outName 256 246 out ".block"
  let fs := (writeBinBlocked 4 cv d fs name gr gc sizes.length sizes.length n es).2
  let es := sortTriplets es false
  let name ← outName 256 246 out ".col"
  let fs := (writeBinCoo 4 cv d fs name gr gc es).2
  let t ← expandElements (2 ^ 32) sizes (sizeToOffset (2 ^ 32) sizes) es
  let name ← outName 256 236 out (".col.exp" ++ decimal t.1)
  .ok (writeBinCoo 4 cv d fs name (mulM (2 ^ 32) t.1 sizes.length) (mulM (2 ^ 32) t.1 sizes.length) t.2).2

/-- The directory of the temporary files — prepare.cpp:18-19, 37, 232. -/
def tmpDir : String := "/tmp/csbr_prepare/"

/-- `rm -rf` of a directory, prepare.cpp:232: every file in it, whoever made it, is gone. -/
def FS.removeUnder (fs : FS) (dir : String) : FS := fun n => if dir.toList.isPrefixOf n.toList then none else fs n

/-- `main` of prepare — prepare.cpp:21-235.  That the temporary directory was made is part of `d`. -/
def prepareTool (cv : Codec T) (decimal : Nat → String) (malloc0 : Bool) (d : Disk) (fs : FS) (gr gc : Nat) (args : List String) :
    C Exit :=
  match args with
  | [frow, fcol, fval, fperm, fsizes, out] => do
    match ← readBinArray (idx 4) malloc0 fs fperm with
    | none => .ok (1, fs)
    | some p =>
      if p.1 < 0 then .ok (1, fs)
      else do
        let t ← prepareIndeces malloc0 d fs p.2.1 frow tmpRows
        if t.1 then do
          let t ← prepareIndeces malloc0 d t.2 p.2.1 fcol tmpCols
          if t.1 then do
            match ← readSizes malloc0 t.2 fsizes with
            | none => .ok (1, t.2)
            | some sizes => do
              let off := sizeToOffset (2 ^ 32) sizes
              match ← readBinCoo3Gen 4 cv t.2 tmpRows tmpCols fval with
              | none => .ok (1, t.2)
              | some r =>
                if r.ret < 0 then .ok (1, t.2)
                else do
                  let es ← r.mat.ents
                  let es ← calculateBlockId (2 ^ 32) (asElements es) off sizes.length off sizes.length
                  let fs ← prepareOutputs cv decimal d t.2 (r.mat.rows.getD gr) (r.mat.columns.getD gc) out sizes es
                  .ok (0, fs.removeUnder tmpDir)
          else .ok (1, t.2)
        else .ok (1, t.2)
  | _ => .ok (1, fs)

/-! ### sort -/

/-- `main` of sort — sort.cpp:14-102, with `T = double`.  With two arguments the code reads `argv[4]`,
beyond the terminating null pointer `argv[3]`; with four it hands the block *sizes* to a function
that expects offsets. -/
def sortTool (cv : Codec T) (conv : Bytes → T) (fmt : T → Fixed6) (stdSort : Nat → Nat → List (Triplet T) → C (List (Triplet T)))
    (fuel : Nat) (malloc0 : Bool) (d : Disk) (fs : FS) (args : List String) : C Exit :=
  match args with
  | [fmtx] => do
    let r ← readMmCoo (2 ^ 32) conv fuel fs fmtx
    if r.1 < 0 then .ok (1, fs)
    else
      match r.2.rows, r.2.columns with
      | some rows, some columns => do
        let es ← r.2.ents
        let out ← outName 128 118 fmtx ".sorted"
        .ok (0, (writeMmCoo fmt d fs out rows columns (sortTriplets es)).2)
      | _, _ => .error .uninit
  | [_, _] => .error .oob
  | [frow, fcol, fval] => do
    match ← readBinCoo3Gen 4 cv fs frow fcol fval with
    | none => .ok (1, fs)
    | some r =>
      if r.ret < 0 then .ok (1, fs)
      else do
        let es ← r.mat.ents
        let a ← outName 128 118 frow ".sorted"
        let b ← outName 128 118 fcol ".sorted"
        let c ← outName 128 118 fval ".sorted"
        .ok (0, (writeBinCoo3 4 cv d fs a b c (sortTriplets es)).2)
  | [frow, fcol, fval, fsizes] => do
    match ← readBinArray (idx 4) malloc0 fs fsizes with
    | none => .ok (1, fs)
    | some b => do
      match ← readBinCoo3Gen 4 cv fs frow fcol fval with
      | none => .ok (1, fs)
      | some r =>
        if r.ret < 0 ∨ b.1 < 0 then .ok (1, fs)
        else do
          let es ← r.mat.ents
          let sizes ← b.2.1.toList b.2.2
          let es ← sortTripletsBlocks (2 ^ 32) stdSort es [] sizes (b.2.2 % 2 ^ 32)
          let a ← outName 128 118 frow ".sorted"
          let b ← outName 128 118 fcol ".sorted"
          let c ← outName 128 118 fval ".sorted"
          .ok (0, (writeBinCoo3 4 cv d fs a b c es).2)
  | _ => .ok (1, fs)

end Gsb
