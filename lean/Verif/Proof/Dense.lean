import Verif.Model.Dense
import Verif.Spec.Dense
import Verif.Proof.Csr
import Mathlib.Algebra.BigOperators.Fin
namespace Gsb
variable {ε T : Type} [NZ ε T]

theorem lastAt_snoc [Zero T] (es : List (Ent T)) (e : Ent T) (i j : Nat) :
    lastAt (es ++ [e]) i j = if e.row = i ∧ e.col = j then e.val else lastAt es i j := by
  unfold lastAt
  rw [List.reverse_append]
  simp only [List.reverse_singleton, List.singleton_append, List.find?_cons]
  by_cases h : e.row = i ∧ e.col = j
  · simp [h.1, h.2]
  · have : (e.row == i && e.col == j) = false := by
      rw [Bool.eq_false_iff]; simpa using h
    simp [this, h]

theorem pos_iff {columns r c p : Nat} (hc : c < columns) :
    p = r * columns + c ↔ r = p / columns ∧ c = p % columns := by
  constructor
  · rintro rfl
    constructor
    · rw [Nat.mul_comm, Nat.mul_add_div (by omega), Nat.div_eq_of_lt hc]; omega
    · rw [Nat.mul_comm, Nat.mul_add_mod, Nat.mod_eq_of_lt hc]
  · rintro ⟨rfl, rfl⟩
    rw [Nat.mul_comm]; exact (Nat.div_add_mod p columns).symm

theorem pos_lt {rows columns r c : Nat} (hr : r < rows) (hc : c < columns) :
    r * columns + c < rows * columns := by
  calc r * columns + c < r * columns + columns := by omega
    _ = (r + 1) * columns := by rw [Nat.add_mul]; omega
    _ ≤ rows * columns := Nat.mul_le_mul_right _ hr

theorem denseFill_spec [Zero T] (M : Nat) (es : List ε) (rows columns : Nat) (hM : rows * columns < M)
    (hin : InRange (ents es) rows columns) :
    denseFill M es columns (Buf.filled (mulM M rows columns) 0) =
      .ok (Buf.full (rows * columns) (fun p => lastAt (ents es) (p / columns) (p % columns))) := by
  unfold denseFill
  rw [mulM_eq hM]
  refine forLoop_closed' (fun i => Buf.full (rows * columns)
    (fun p => lastAt (ents (es.take i)) (p / columns) (p % columns))) (Nat.zero_le _) ?_ ?_ ?_
  · simp [ents, lastAt, Buf.filled, Buf.full]
  · simp
  · intro i _ hi
    have hm := hin _ (List.mem_map_of_mem (f := NZ.toEnt) (List.getElem_mem hi))
    have hp := pos_lt hm.1 hm.2
    have htake : es.take (i + 1) = es.take i ++ [es[i]] := by
      rw [List.take_add_one]; simp [hi]
    rw [rd_ok hi, ok_bind, mulM_eq (by omega), addM_eq (by omega), Buf.put_full hp]
    congr 2
    funext p
    rw [htake]
    unfold ents
    rw [List.map_append, List.map_singleton, lastAt_snoc]
    by_cases h : p = (NZ.toEnt es[i]).row * columns + (NZ.toEnt es[i]).col
    · have h' := (pos_iff hm.2).1 h
      rw [if_pos h, if_pos ⟨h'.1, h'.2⟩]
    · rw [if_neg h, if_neg (fun hh => h ((pos_iff hm.2).2 hh))]

theorem dense_spmv_spec [Add T] [Mul T] (M : Nat) (A : Dense T) (D : Nat → Nat → T)
    (hM : A.rows * A.columns < M) (hlen : A.val.len = A.rows * A.columns)
    (hD : ∀ i j, i < A.rows → j < A.columns → A.val.dat (i * A.columns + j) = some (D i j))
    {nx ny xo yo : Nat} (hx : xo + A.columns ≤ nx) (hy : yo + A.rows ≤ ny) (x y : Nat → T) :
    A.spmv M (Buf.full nx x) xo (Buf.full ny y) yo =
      .ok (Buf.full ny (fun k => if yo ≤ k ∧ k < yo + A.rows then
        denseAcc (D (k - yo)) (fun j => x (xo + j)) A.columns (y k) else y k)) := by
  unfold Dense.spmv
  refine forLoop_closed' (fun i => Buf.full ny (fun k => if yo ≤ k ∧ k < yo + i then
        denseAcc (D (k - yo)) (fun j => x (xo + j)) A.columns (y k) else y k)) (Nat.zero_le _) ?_ rfl ?_
  · congr 1; funext k; rw [if_neg (by omega)]
  · intro i _ hi
    unfold spmvDenseRow
    rw [Buf.get_full (by omega), ok_bind, if_neg (by omega)]
    rw [forLoop_closed' (s := y (yo + i)) (fun j => denseAcc (D i) (fun j => x (xo + j)) j (y (yo + i)))
      (Nat.zero_le A.columns) rfl rfl]
    · rw [ok_bind, Buf.put_full (by omega)]
      congr 2
      funext k
      by_cases hk : k = yo + i
      · subst hk; simp
      · rw [if_neg hk]
        by_cases h2 : yo ≤ k ∧ k < yo + i
        · rw [if_pos h2, if_pos (by omega)]
        · rw [if_neg h2, if_neg (by omega)]
    · intro j _ hj
      have hp := pos_lt hi hj
      rw [mulM_eq (by omega), addM_eq (by omega), Buf.get_ok (by omega) (hD i j hi hj), ok_bind,
        Buf.get_full (by omega), ok_bind]
      simp [denseAcc, List.range_succ]

theorem lastAt_eq_sum [AddMonoid T] (es : List (Ent T)) (h : Distinct es) (i j : Nat) :
    lastAt es i j = ((es.filter (fun e => e.row == i && e.col == j)).map (·.val)).sum := by
  induction es using List.reverseRecOn with
  | nil => simp [lastAt]
  | append_singleton es e ih =>
    unfold Distinct at h
    rw [List.pairwise_append] at h
    rw [lastAt_snoc, List.filter_append, List.map_append, List.sum_append]
    by_cases hc : e.row = i ∧ e.col = j
    · rw [if_pos hc, List.filter_eq_nil_iff.2]
      · simp [hc.1, hc.2]
      · intro a ha hh
        simp at hh
        exact h.2.2 a ha e (by simp) ⟨by omega, by omega⟩
    · rw [if_neg hc, ih h.1]
      have : (e.row == i && e.col == j) = false := by
        rw [Bool.eq_false_iff]; simpa using hc
      simp [this]

theorem denseAcc_eq_sum [NonUnitalNonAssocSemiring T] (d x : Nat → T) (n : Nat) (acc : T) :
    denseAcc d x n acc = acc + ∑ j : Fin n, d j * x j := by
  induction n with
  | zero => simp [denseAcc]
  | succ n ih =>
    have : denseAcc d x (n + 1) acc = denseAcc d x n acc + d n * x n := by
      simp [denseAcc, List.range_succ]
    rw [this, ih, Fin.sum_univ_castSucc, add_assoc]
    rfl

theorem spmvSum_shift [AddMonoid T] [Mul T] (L : List (Ent T)) (ro co : Nat) (x y : Nat → T) (i : Nat) :
    spmvSum (shift ro co L) x y (ro + i) = spmvSum L (fun j => x (co + j)) (fun i => y (ro + i)) i := by
  unfold spmvSum rowEntries shift
  rw [List.filter_map, List.map_map]
  congr 1
  congr 1
  have : ((fun e : Ent T => e.row == ro + i) ∘ fun e : Ent T => (⟨ro + e.row, co + e.col, e.val⟩ : Ent T)) =
      (fun e => e.row == i) := by funext e; simp
  rw [this]; rfl

theorem spmvSum_shift_out [AddMonoid T] [Mul T] (L : List (Ent T)) (ro co rows : Nat)
    (h : ∀ e ∈ L, e.row < rows) (x y : Nat → T) (i : Nat) (hi : ¬ (ro ≤ i ∧ i < ro + rows)) :
    spmvSum (shift ro co L) x y i = y i := by
  unfold spmvSum rowEntries shift
  rw [List.filter_eq_nil_iff.2]
  · simp
  · intro e he
    obtain ⟨a, ha, rfl⟩ := List.mem_map.1 he
    have := h a ha
    simp; omega

/-- In a semiring, a dense block with distinct coordinates multiplies like its entries. -/
theorem dense_spmv_sum [NonUnitalNonAssocSemiring T] (M : Nat) (es : List ε) (rows columns : Nat)
    (hM : rows * columns < M) (hin : InRange (ents es) rows columns) (hd : Distinct (ents es))
    {nx ny xo yo : Nat} (hx : xo + columns ≤ nx) (hy : yo + rows ≤ ny) (x y : Nat → T) :
    (⟨Buf.full (rows * columns) (fun p => lastAt (ents es) (p / columns) (p % columns)), rows, columns⟩ :
      Dense T).spmv M (Buf.full nx x) xo (Buf.full ny y) yo =
      .ok (Buf.full ny (spmvSum (shift yo xo (ents es)) x y)) := by
  rw [dense_spmv_spec M _ (fun i j => lastAt (ents es) i j) hM rfl
    (fun i j hi hj => by
      have hj' : j < columns := hj
      have h' := (pos_iff (r := i) hj').1 rfl
      simp only [Buf.full_dat]
      rw [← h'.1, ← h'.2]) hx hy]
  congr 2
  funext k
  simp only
  by_cases hk : yo ≤ k ∧ k < yo + rows
  · rw [if_pos hk]
    obtain ⟨i, rfl⟩ : ∃ i, k = yo + i := ⟨k - yo, by omega⟩
    rw [spmvSum_shift, Nat.add_sub_cancel_left, denseAcc_eq_sum]
    have := spmvSum_eq_mulVec (ents es) rows columns hin (fun j => x (xo + j)) (fun i => y (yo + i))
      ⟨i, by omega⟩
    simp only at this
    rw [this]
    congr 1
    unfold toMatrix Matrix.mulVec dotProduct
    refine Finset.sum_congr rfl (fun j _ => ?_)
    rw [lastAt_eq_sum _ hd]
  · rw [if_neg hk, spmvSum_shift_out _ _ _ rows (fun e he => (hin e he).1) x y k hk]

end Gsb
