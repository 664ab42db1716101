import Verif.Model.File
/-
The tool pprint — src/tools/pprint.c.  The index type has 4 bytes (pprint.c:6).
-/
namespace Gsb
variable {T : Type}

/-- What is printed, without the layout of the numbers. -/
inductive Tok (T : Type) where
  /-- "Assuming input is in blocked format." — pprint.c:35 -/
  | assuming
  /-- "… rows x … columns, … non-zeros" — pprint.c:49-50 -/
  | header (rows columns nnz : Nat)
  /-- a line with an index — pprint.c:54, 60, 93 -/
  | index (n : Nat)
  /-- the dashes — pprint.c:56, 62 -/
  | dashes
  /-- a line with a value — pprint.c:66 -/
  | value (v : T)
  /-- the four columns of a record — pprint.c:79-86 -/
  | record (block row col : Nat) (v : T)

/-- Printing a variable that may be indeterminate. -/
def shown {α : Type} (v : Option α) : C α :=
  match v with
  | some a => .ok a
  | none => .error .uninit

/-- `for (i=0; i<nnz; i++) { fread(&v, …); printf(v); }` — pprint.c:52-55, 58-61, 64-67.  State: the stream, the
variable, what is printed. -/
def printLoop {α : Type} (c : Codec α) (tok : α → Tok T) (nnz : Nat) (f : In) (v : Option α) (out : List (Tok T)) :
    C (In × Option α × List (Tok T)) :=
  forLoop 0 nnz (f, v, out) fun _ s => do
    let r := fread1 c s.1 s.2.1
    let a ← shown r.2.1
    .ok (r.2.2, r.2.1, s.2.2 ++ [tok a])

/-- Mode 0, "triples" — pprint.c:44-68. -/
def pprintTriples (cv : Codec T) (f : In) (out : List (Tok T)) : C (List (Tok T)) := do
  let r1 := fread1 (idx 4) f none
  let r2 := fread1 (idx 4) r1.2.2 none
  let r3 := fread1 (idx 4) r2.2.2 none
  let r ← shown r1.2.1
  let c ← shown r2.2.1
  let nnz ← shown r3.2.1
  let s1 ← printLoop (idx 4) .index nnz r3.2.2 none (out ++ [.header r c nnz])
  let s2 ← printLoop (idx 4) .index nnz s1.1 s1.2.1 (s1.2.2 ++ [.dashes])
  let s3 ← printLoop cv .value nnz s2.1 none (s2.2.2 ++ [.dashes])
  .ok s3.2.2

/-- The variables `n` and `v`, the stream and what is printed. -/
structure PrintRec (T : Type) where
  f : In
  n : Option Nat
  v : Option T
  out : List (Tok T)

/-- The loop of mode 1 — pprint.c:78-87.  The three indices of a record are read into the same variable. -/
def pprintRecord (cv : Codec T) (s : PrintRec T) : C (PrintRec T) := do
  let r1 := fread1 (idx 4) s.f s.n
  let b ← shown r1.2.1
  let r2 := fread1 (idx 4) r1.2.2 r1.2.1
  let row ← shown r2.2.1
  let r3 := fread1 (idx 4) r2.2.2 r2.2.1
  let col ← shown r3.2.1
  let r4 := fread1 cv r3.2.2 s.v
  let v ← shown r4.2.1
  .ok ⟨r4.2.2, r3.2.1, r4.2.1, s.out ++ [.record b row col v]⟩

/-- Mode 1, "blocks" — pprint.c:70-88. -/
def pprintBlocks (cv : Codec T) (f : In) (out : List (Tok T)) : C (List (Tok T)) := do
  let r1 := fread1 (idx 4) f none
  let r2 := fread1 (idx 4) r1.2.2 none
  let r3 := fread1 (idx 4) r2.2.2 none
  let r4 := fread1 (idx 4) r3.2.2 none
  let r5 := fread1 (idx 4) r4.2.2 r4.2.1
  let r6 := fread1 (idx 4) r5.2.2 r5.2.1
  let nnz ← shown r3.2.1
  let s ← forLoop 0 nnz (⟨r6.2.2, r6.2.1, none, out⟩ : PrintRec T) fun _ s => pprintRecord cv s
  .ok s.out

/-- Mode 2, "vector": `while (fread(&n, …) > 0) printf(n)` — pprint.c:90-92.  Each round consumes an index, so one
more round than there are bytes is enough. -/
def pprintVector : Nat → In → List (Tok T) → C (List (Tok T))
  | 0, _, _ => .error .budget
  | k + 1, f, out =>
    let r := fread1 (idx 4) f none
    if r.1 > 0 then do
      let n ← shown r.2.1
      pprintVector k r.2.2 (out ++ [.index n])
    else .ok out

/-- `main` — pprint.c:13-97.  Status and output; a file that cannot be opened is only reported, and reading from the null
pointer is undefined. -/
def pprint (cv : Codec T) (fs : FS) (args : List String) : C (Int × List (Tok T)) :=
  match args with
  | [] => .ok (1, [])
  | name :: rest =>
    let mode := if rest = ["triples"] then (0, []) else if rest = ["blocks"] then (1, [])
      else if rest = ["vector"] then (2, []) else (1, [Tok.assuming])
    match fs name with
    | none => .error .ub
    | some data => do
      let out ← match mode.1 with
        | 0 => pprintTriples cv ⟨data, 0⟩ mode.2
        | 1 => pprintBlocks cv ⟨data, 0⟩ mode.2
        | _ => pprintVector (data.length + 1) ⟨data, 0⟩ mode.2
      .ok (0, out)

end Gsb
