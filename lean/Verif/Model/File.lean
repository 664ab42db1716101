import Verif.Basic.C
import Verif.Spec.Files
/-
The part of C stdio the readers and writers use.  Files are byte sequences; a stream open for
reading is the bytes and a position.
-/
namespace Gsb

/-- The files there are, by name. -/
abbrev FS := String → Option Bytes

/-- A file created or replaced. -/
def FS.set (fs : FS) (name : String) (b : Bytes) : FS := fun n => if n = name then some b else fs n

/-- A stream open for reading. -/
structure In where
  data : Bytes
  pos : Nat

/-- The bytes not read yet. -/
def In.rest (f : In) : Bytes := f.data.drop f.pos

/-- `fread(&v, sizeof v, 1, f)`: the count returned, `v` afterwards (`none`: indeterminate) and the
stream.  With too few bytes left the count is 0, all of them are consumed, and `v` is unchanged if
there were none and indeterminate if it was overwritten in part. -/
def fread1 {α : Type} (c : Codec α) (f : In) (v : Option α) : Nat × Option α × In :=
  if c.size ≤ f.rest.length then (1, some (c.dec (f.rest.take c.size)), ⟨f.data, f.pos + c.size⟩)
  else (0, if f.rest.length = 0 then v else none, ⟨f.data, f.pos + f.rest.length⟩)

/-- `a[i] = v` where `v` may be indeterminate. -/
def Buf.putOpt {α : Type} (b : Buf α) (i : Nat) (v : Option α) : C (Buf α) :=
  if i < b.len then .ok ⟨b.len, fun k => if k = i then v else b.dat k⟩ else .error .oob

/-- `fread(a + i, sizeof *a, n, f)` : item after item until one is short. -/
def freadArr {α : Type} (c : Codec α) : Nat → Nat → In → Buf α → C (Nat × In × Buf α)
  | 0, _, f, a => .ok (0, f, a)
  | n + 1, i, f, a => do
    let r := fread1 c f (a.dat i)
    let a ← if f.rest.length = 0 then .ok a else a.putOpt i r.2.1
    if r.1 = 1 then
      let t ← freadArr c n (i + 1) r.2.2 a
      .ok (t.1 + 1, t.2)
    else .ok (0, r.2.2, a)

/-- `fseek(f, -n, SEEK_CUR)`: fails, leaving the position, if that is before the start. -/
def In.back (f : In) (n : Nat) : In := if n ≤ f.pos then ⟨f.data, f.pos - n⟩ else f

/-- `fseek(f, n, SEEK_CUR)`: may go beyond the end. -/
def In.forward (f : In) (n : Nat) : In := ⟨f.data, f.pos + n⟩

/-- How writing goes: which names can be opened, how many bytes `fwrite` takes before it starts
failing (a full disk), and how many of those are on the disk once the stream is closed (a failure of
the final flush, a crash). -/
structure Disk where
  opens : String → Bool
  room : Nat
  kept : Nat

/-- `fwrite(&v, sizeof v, 1, f)` on a stream that has taken the bytes `o`. -/
def fwrite1 {α : Type} (d : Disk) (c : Codec α) (v : α) (o : Bytes) : Nat × Bytes :=
  if o.length + c.size ≤ d.room then (1, o ++ c.enc v)
  else (0, o ++ (c.enc v).take (d.room - o.length))

/-- `fwrite(a, sizeof *a, n, f)` of a whole array: stops at the first item that is short. -/
def fwriteArr {α : Type} (d : Disk) (c : Codec α) : List α → Bytes → Nat × Bytes
  | [], o => (0, o)
  | v :: l, o =>
    let r := fwrite1 d c v o
    if r.1 = 1 then
      let t := fwriteArr d c l r.2
      (t.1 + 1, t.2)
    else r

/-- Items written one `fwrite` each, the counts ignored. -/
def fwriteEach {α : Type} (d : Disk) (c : Codec α) (l : List α) (o : Bytes) : Bytes :=
  l.foldl (fun o v => (fwrite1 d c v o).2) o

/-- `fclose`: what the file holds afterwards. -/
def Disk.close (d : Disk) (o : Bytes) : Bytes := o.take d.kept

/-- A disk on which nothing fails. -/
structure Disk.Works (d : Disk) (n : Nat) (name : String) : Prop where
  opens : d.opens name = true
  room : n ≤ d.room
  kept : n ≤ d.kept

end Gsb
