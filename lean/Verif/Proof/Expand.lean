import Verif.Proof.Permute
import Verif.Proof.Bits
/-
Lemmas for expand.h.
-/
namespace Gsb
variable {T : Type}

section
variable {off : List Nat} {n total bs : Nat} (P : Partition off n total) (B : BlocksAtMost off bs)
include P

theorem Partition.get_off {b : Nat} (hb : b ≤ n) : off[b]? = some (offF off b) := by
  have := P.len
  rw [offF_eq (by omega)]; exact List.getElem?_eq_getElem _

/-- The slot position of `i`. -/
def slot (off : List Nat) (n bs i : Nat) : Nat := bidx off n i * bs + (i - offF off (bidx off n i))

theorem expandsTo_slot {i : Nat} (hi : i < total) : ExpandsTo off bs i (slot off n bs i) :=
  ⟨bidx off n i, _, _, P.get_off (by have := P.bidx_lt hi; omega), P.get_off (by have := P.bidx_lt hi; omega),
    P.bidx_lo hi, P.bidx_hi hi, rfl⟩

include B

theorem Partition.off_le {b : Nat} (hb : b ≤ n) : offF off b ≤ b * bs := by
  induction b with
  | zero => rw [P.at_zero]; omega
  | succ b ih =>
    have h1 := ih (by omega)
    have h2 := B b _ _ (P.get_off (by omega)) (P.get_off hb)
    rw [Nat.add_mul]; omega

theorem Partition.pos_lt {i : Nat} (hi : i < total) : i - offF off (bidx off n i) < bs := by
  have h1 := P.bidx_lt hi
  have h2 := B _ _ _ (P.get_off (show bidx off n i ≤ n by omega)) (P.get_off (show bidx off n i + 1 ≤ n by omega))
  have h3 := P.bidx_hi hi
  have h4 := P.bidx_lo hi
  omega

theorem slot_lt {i : Nat} (hi : i < total) : slot off n bs i < n * bs := key_lt (P.bidx_lt hi) (P.pos_lt B hi)

theorem slot_mono {i j : Nat} (hj : j < total) (h : i < j) : slot off n bs i < slot off n bs j := by
  have hb := bidx_mono (off := off) (n := n) (Nat.le_of_lt h)
  unfold slot
  by_cases e : bidx off n i = bidx off n j
  · rw [e]
    have := P.bidx_lo (show i < total by omega)
    have := P.bidx_lo hj
    rw [e] at *
    omega
  · have h1 := P.pos_lt B (show i < total by omega)
    have h2 : (bidx off n i + 1) * bs ≤ bidx off n j * bs := Nat.mul_le_mul_right _ (by omega)
    rw [Nat.add_mul] at h2
    omega

theorem slot_le_iff {i j : Nat} (hi : i < total) (hj : j < total) : i ≤ j ↔ slot off n bs i ≤ slot off n bs j := by
  constructor
  · intro h
    rcases Nat.lt_or_eq_of_le h with h | h
    · exact Nat.le_of_lt (slot_mono P B hj h)
    · rw [h]
  · intro h
    by_contra hc
    have := slot_mono P B hi (show j < i by omega)
    omega

theorem expandsTo_unique {i j : Nat} (h : ExpandsTo off bs i j) : i < total ∧ j = slot off n bs i := by
  obtain ⟨b, lo, hi, h1, h2, h3, h4, rfl⟩ := h
  have hl := P.len
  have hb : b + 1 < off.length := (List.getElem?_eq_some_iff.1 h2).1
  have e1 : lo = offF off b := by rw [P.get_off (by omega)] at h1; exact (Option.some.inj h1).symm
  have e2 : hi = offF off (b + 1) := by rw [P.get_off (by omega)] at h2; exact (Option.some.inj h2).symm
  have hit : i < total := by have := P.le_total (i := b + 1) (by omega); omega
  have hbi : b = bidx off n i := by
    have a1 := P.bidx_lo hit
    have a2 := P.bidx_hi hit
    have a3 := P.bidx_lt hit
    rcases Nat.lt_trichotomy b (bidx off n i) with h | h | h
    · have := P.mono (show b + 1 ≤ bidx off n i by omega) (by omega); omega
    · exact h
    · have := P.mono (show bidx off n i + 1 ≤ b by omega) (by omega); omega
  refine ⟨hit, ?_⟩
  unfold slot
  rw [← hbi, ← e1]

theorem expandIndex_spec {M i : Nat} (hi : i < total) (hM : n * bs ≤ M) (hn : n < M) (ht : total ≤ M) :
    expandIndex M off n bs i = .ok (slot off n bs i) := by
  have h1 := P.bidx_lt hi
  have hs := slot_lt P B hi
  have hlo := P.bidx_lo hi
  have hb : bidx off n i * bs < M := by
    have : bidx off n i * bs ≤ slot off n bs i := Nat.le_add_right _ _
    omega
  unfold expandIndex
  rw [P.bidx_ok hn hi, ok_bind, rd_off (by have := P.len; omega), ok_bind, subM_eq (by omega) hlo, mulM_eq hb,
    addM_eq (by unfold slot at hs; omega)]
  unfold slot
  rw [Nat.add_comm]

end

/-- The element moved to its slot. -/
def moveElement (f : Nat → Nat) (e : Element T) : Element T := { e with row := f e.row, col := f e.col }

theorem expandElement_spec {M : Nat} {off : List Nat} {n total bs : Nat} (P : Partition off n total) (B : BlocksAtMost off bs)
    (hM : n * bs ≤ M) (ht : total ≤ M) {e : Element T} (hr : e.row < total) (hc : e.col < total)
    (hb : e.block = blockKey off n off n e.row e.col) :
    expandElement M off n bs e = .ok (moveElement (slot off n bs) e) := by
  have b1 := P.bidx_lt hr
  have b2 := P.bidx_lt hc
  have hbr : e.block / n = bidx off n e.row := by rw [hb]; exact key_div b2
  have hbc : e.block % n = bidx off n e.col := by rw [hb]; exact key_mod b2
  have one : ∀ i, i < total → bidx off n i * bs < M ∧ offF off (bidx off n i) ≤ bidx off n i * bs ∧
      bidx off n i * bs - offF off (bidx off n i) + i = slot off n bs i ∧ slot off n bs i < M := by
    intro i hi
    have h1 := slot_lt P B hi
    have h2 := P.off_le B (b := bidx off n i) (by have := P.bidx_lt hi; omega)
    have h3 := P.bidx_lo hi
    unfold slot at *
    omega
  obtain ⟨r1, r2, r3, r4⟩ := one _ hr
  obtain ⟨c1, c2, c3, c4⟩ := one _ hc
  have hl := P.len
  unfold expandElement moveElement
  rw [cdiv_ok (by omega), ok_bind, cmod_ok (by omega), ok_bind, hbr, hbc, rd_off (by omega), ok_bind, mulM_eq r1,
    cassert_ok (by simpa using r2), ok_bind, rd_off (by omega), ok_bind, mulM_eq c1, cassert_ok (by simpa using c2), ok_bind,
    subM_eq r1 r2, subM_eq c1 c2, addM_eq (by omega), addM_eq (by omega), r3, c3]

theorem foldMax_spec (l : List Nat) (a : Nat) :
    (∀ s ∈ l, s ≤ l.foldl (fun mx s => if mx < s then s else mx) a) ∧ a ≤ l.foldl (fun mx s => if mx < s then s else mx) a ∧
    (l.foldl (fun mx s => if mx < s then s else mx) a = a ∨ l.foldl (fun mx s => if mx < s then s else mx) a ∈ l) := by
  induction l generalizing a with
  | nil => simp
  | cons s l ih =>
    rw [List.foldl_cons]
    obtain ⟨h1, h2, h3⟩ := ih (if a < s then s else a)
    have : a ≤ (if a < s then s else a) ∧ s ≤ (if a < s then s else a) := by split <;> omega
    refine ⟨?_, by omega, ?_⟩
    · intro t ht
      rcases List.mem_cons.1 ht with rfl | ht
      · omega
      · exact h1 t ht
    · rcases h3 with h3 | h3
      · rw [h3]
        split
        · exact Or.inr List.mem_cons_self
        · exact Or.inl rfl
      · exact Or.inr (List.mem_cons_of_mem _ h3)

theorem blocksAtMost_sizes {M : Nat} {sizes : List Nat} {bs : Nat} (h : sizes.sum < M)
    (hoff : ∀ k, k ≤ sizes.length → (sizeToOffset M sizes)[k]? = some ((sizes.take k).sum % M))
    (hlen : (sizeToOffset M sizes).length = sizes.length + 1) (hs : ∀ s ∈ sizes, s ≤ bs) : BlocksAtMost (sizeToOffset M sizes) bs := by
  have hsum : ∀ k, (sizes.take k).sum ≤ sizes.sum := fun k => by
    conv => rhs; rw [← List.take_append_drop k sizes, List.sum_append]
    omega
  intro i lo hi h1 h2
  have hi' : i + 1 < (sizeToOffset M sizes).length := (List.getElem?_eq_some_iff.1 h2).1
  rw [hoff _ (by omega), Nat.mod_eq_of_lt (Nat.lt_of_le_of_lt (hsum _) h)] at h1 h2
  have hl : i < sizes.length := by omega
  have e : (sizes.take (i + 1)).sum = (sizes.take i).sum + sizes[i] := by
    rw [List.take_add_one]; simp [hl]
  have := hs _ (List.getElem_mem hl)
  cases h1; cases h2
  omega

end Gsb
