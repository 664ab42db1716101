import Verif.Spec
/-
Specification of the file formats: what bytes a file holds.  Nothing here refers to the code.
-/
namespace Gsb

abbrev Bytes := List UInt8

/-- The `w` bytes of an unsigned integer, least significant first. -/
def leBytes : Nat → Nat → Bytes
  | 0, _ => []
  | w + 1, n => UInt8.ofNat n :: leBytes w (n / 256)

/-- The number the bytes stand for, least significant first. -/
def ofLe : Bytes → Nat
  | [] => 0
  | b :: bs => b.toNat + 256 * ofLe bs

/-- How the objects of a type are laid out in memory and in files: `size` bytes each. -/
structure Codec (α : Type) where
  size : Nat
  enc : α → Bytes
  dec : Bytes → α

/-- Objects satisfying `ok` survive being stored and loaded. -/
structure Codec.Exact {α : Type} (c : Codec α) (ok : α → Prop) : Prop where
  pos : 0 < c.size
  len : ∀ a, (c.enc a).length = c.size
  dec_enc : ∀ a, ok a → c.dec (c.enc a) = a

/-- An unsigned index type of `w` bytes (4 for `uint32_t`, 8 for `uint64_t`). -/
def idx (w : Nat) : Codec Nat := ⟨w, leBytes w, ofLe⟩

/-- A sequence of objects one after the other. -/
def packed {α : Type} (c : Codec α) (l : List α) : Bytes := l.flatMap c.enc

/-- The `.bin` format: number of rows, of columns and of entries, then all row indices, all column
indices, all values. -/
def binFile {T : Type} (w : Nat) (cv : Codec T) (rows columns : Nat) (es : List (Ent T)) : Bytes :=
  packed (idx w) [rows, columns, es.length] ++ packed (idx w) (es.map Ent.row) ++
    packed (idx w) (es.map Ent.col) ++ packed cv (es.map Ent.val)

/-- One record of the blocked format: block id, row, column, value. -/
def blockRecord {T : Type} (w : Nat) (cv : Codec T) (r : Nat × Ent T) : Bytes :=
  leBytes w r.1 ++ leBytes w r.2.row ++ leBytes w r.2.col ++ cv.enc r.2.val

/-- The `.block` format: six words — rows, columns, entries, block-rows, block-columns, non-empty
blocks — then one record per entry. -/
def blockFile {T : Type} (w : Nat) (cv : Codec T) (rows columns blockrows blockcols nnzblocks : Nat)
    (l : List (Nat × Ent T)) : Bytes :=
  packed (idx w) [rows, columns, l.length, blockrows, blockcols, nnzblocks] ++ l.flatMap (blockRecord w cv)

theorem leBytes_length (w n : Nat) : (leBytes w n).length = w := by
  induction w generalizing n with
  | zero => rfl
  | succ w ih => simp [leBytes, ih]

theorem ofLe_leBytes (w n : Nat) : ofLe (leBytes w n) = n % 256 ^ w := by
  induction w generalizing n with
  | zero => simp [leBytes, ofLe, Nat.mod_one]
  | succ w ih =>
    rw [leBytes, ofLe, ih, Nat.pow_succ', Nat.mod_mul]
    simp

theorem idx_exact {w : Nat} (hw : 0 < w) : (idx w).Exact (· < 256 ^ w) where
  pos := hw
  len := leBytes_length w
  dec_enc a h := by
    show ofLe (leBytes w a) = a
    rw [ofLe_leBytes, Nat.mod_eq_of_lt h]

section
variable {α : Type} {c : Codec α} {ok : α → Prop}

@[simp] theorem packed_nil : packed c [] = [] := rfl
@[simp] theorem packed_cons (a : α) (l : List α) : packed c (a :: l) = c.enc a ++ packed c l := rfl
theorem packed_append (l l' : List α) : packed c (l ++ l') = packed c l ++ packed c l' := by
  simp [packed]
theorem packed_length (h : c.Exact ok) (l : List α) : (packed c l).length = l.length * c.size := by
  induction l with
  | nil => simp
  | cons a l ih => simp [h.len, ih, Nat.succ_mul]; omega
end

end Gsb
