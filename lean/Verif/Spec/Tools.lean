import Verif.Spec.Files
import Verif.Spec.Blocks
import Verif.Spec.Sort
/-
Specification for the command line tools: what a file of objects holds, and the orders of entries.
-/
namespace Gsb

/-- The objects in a file: as many as there are complete ones; what follows the last complete one does
not count. -/
def items {α : Type} (c : Codec α) (data : Bytes) : List α :=
  (List.range (data.length / c.size)).map fun i => c.dec ((data.drop (i * c.size)).take c.size)

theorem items_length {α : Type} (c : Codec α) (data : Bytes) : (items c data).length = data.length / c.size := by
  simp [items]

/-- A file made of objects holds these, even with a few bytes too many at the end. -/
theorem items_packed {α : Type} {c : Codec α} {ok : α → Prop} (hc : c.Exact ok) (l : List α) (hl : ∀ a ∈ l, ok a)
    (junk : Bytes) (hj : junk.length < c.size) : items c (packed c l ++ junk) = l := by
  have hlen : (packed c l ++ junk).length / c.size = l.length := by
    rw [List.length_append, packed_length hc, Nat.add_comm, Nat.add_mul_div_right _ _ hc.pos, Nat.div_eq_of_lt hj, Nat.zero_add]
  refine List.ext_getElem (by rw [items_length, hlen]) fun i h1 h2 => ?_
  simp only [items, List.getElem_map, List.getElem_range]
  have hsplit : l = l.take i ++ l[i] :: l.drop (i + 1) := by rw [List.getElem_cons_drop]; simp
  have : packed c l ++ junk = packed c (l.take i) ++ (c.enc l[i] ++ (packed c (l.drop (i + 1)) ++ junk)) := by
    have h := congrArg (packed c) hsplit
    rw [packed_append, packed_cons] at h
    rw [h]
    simp only [List.append_assoc]
  rw [this, List.drop_left' (by rw [packed_length hc]; simp [Nat.min_eq_left (Nat.le_of_lt h2)]), List.take_left' (hc.len _), hc.dec_enc _ (hl _ (List.getElem_mem _))]

/-- Order by row, then by column. -/
def rowFirst {T : Type} (a b : Ent T) : Bool := decide (a.row < b.row ∨ a.row = b.row ∧ a.col ≤ b.col)

/-- Order by column, then by row. -/
def colFirst {T : Type} (a b : Ent T) : Bool := decide (a.col < b.col ∨ a.col = b.col ∧ a.row ≤ b.row)

/-- `l` are the entries `es`, each with the number of its block in the `k × k` grid of the partition
`off`, ordered by block, row and column; entries at the same place keep their order. -/
structure BlockOrder {T : Type} (off : List Nat) (k : Nat) (es : List (Ent T)) (l : List (Nat × Ent T)) : Prop where
  perm : (l.map Prod.snd).Perm es
  inBlock : ∀ r ∈ l, InBlockRange off (r.1 / k) r.2.row ∧ InBlockRange off (r.1 % k) r.2.col ∧ r.1 < k * k
  sorted : l.Pairwise (fun a b => a.1 < b.1 ∨ a.1 = b.1 ∧ (a.2.row < b.2.row ∨ a.2.row = b.2.row ∧ a.2.col ≤ b.2.col))
  stable : ∀ i j, (l.map Prod.snd).filter (fun e => e.row == i && e.col == j) = es.filter (fun e => e.row == i && e.col == j)

end Gsb
