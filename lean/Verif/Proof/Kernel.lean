import Verif.Model.Csr
import Verif.Proof.StableSort
/-
Helper lemmas shared by all formats: accumulating entries one by one, counting arrays, prefix sums.
-/
namespace Gsb
variable {T : Type}

/-- Add `t` to component `k`. -/
def addAt [Add T] (y : Nat → T) (k : Nat) (t : T) : Nat → T := fun i => if i = k then y i + t else y i

theorem macc_full [Add T] [Mul T] {nx ny k c : Nat} {x y : Nat → T} {v : T} (hk : k < ny) (hc : c < nx) :
    macc (Buf.full ny y) k v (Buf.full nx x) c = .ok (Buf.full ny (addAt y k (v * x c))) := by
  unfold macc
  rw [Buf.get_full hc, ok_bind, Buf.get_full hk, ok_bind, Buf.put_full hk]
  congr 2
  funext i
  unfold addAt
  split
  · next h => rw [h]
  · rfl

/-- Entries visited one after the other, each doing `y[row] += val * x[col]`. -/
def visit [Add T] [Mul T] (x : Nat → T) (y : Nat → T) (l : List (Ent T)) : Nat → T :=
  l.foldl (fun y e => addAt y e.row (e.val * x e.col)) y

theorem visit_eq [Add T] [Mul T] (x y : Nat → T) (l : List (Ent T)) :
    visit x y l = spmvInOrder l x y := by
  unfold visit
  induction l generalizing y with
  | nil => rfl
  | cons e l ih =>
    rw [List.foldl_cons, ih]
    funext i
    unfold spmvInOrder rowEntries accumulate addAt
    by_cases h : e.row = i
    · subst h; simp
    · have h' : ¬ i = e.row := fun hh => h hh.symm
      simp [h, h']

theorem visit_append [Add T] [Mul T] (x y : Nat → T) (l l' : List (Ent T)) :
    visit x y (l ++ l') = visit x (visit x y l) l' := by
  simp [visit, List.foldl_append]

/-- Entries moved to global coordinates: a block's local entries seen from `x + co`, `y + ro`. -/
def shift (ro co : Nat) (l : List (Ent T)) : List (Ent T) :=
  l.map (fun e => ⟨ro + e.row, co + e.col, e.val⟩)

theorem shift_zero (l : List (Ent T)) : shift 0 0 l = l := by
  unfold shift; conv => rhs; rw [← List.map_id l]
  congr 1; funext e; simp

theorem shift_append (ro co : Nat) (l l' : List (Ent T)) :
    shift ro co (l ++ l') = shift ro co l ++ shift ro co l' := List.map_append

/-! ### Counting and prefix sums -/

/-- `Σ_{j ≤ k} f j`. -/
def psum (f : Nat → Nat) : Nat → Nat
  | 0 => f 0
  | k + 1 => psum f k + f (k + 1)

theorem psum_mono (f : Nat → Nat) {a b : Nat} (h : a ≤ b) : psum f a ≤ psum f b := by
  induction b with
  | zero => have : a = 0 := by omega
            subst this; exact Nat.le_refl _
  | succ b ih =>
    rcases Nat.lt_or_ge a (b+1) with h' | h'
    · exact Nat.le_trans (ih (by omega)) (by simp [psum])
    · have : a = b + 1 := by omega
      subst this; exact Nat.le_refl _

theorem prefixSum_full {M len n : Nat} (f : Nat → Nat) (hn : n < len) (hM : psum f n < M) :
    prefixSum M (Buf.full len f) n =
      .ok (Buf.full len (fun k => if k ≤ n then psum f k else f k)) := by
  unfold prefixSum
  refine forLoop_closed' (fun i => Buf.full len (fun k => if k ≤ i then psum f k else f k)) (Nat.zero_le _)
    ?_ rfl ?_
  · congr 1
    funext i
    split
    · next h => have : i = 0 := by omega
                subst this; rfl
    · rfl
  · intro i _ hi
    rw [Buf.get_full (by omega), ok_bind, Buf.get_full (by omega), ok_bind, Buf.put_full (by omega)]
    have h1 : ¬ (i + 1 ≤ i) := by omega
    have hm := psum_mono f (show i + 1 ≤ n by omega)
    simp only [h1, if_false, Nat.le_refl, if_true]
    rw [addM_eq (by simp [psum] at hm; omega)]
    congr 2
    funext k
    by_cases hk : k = i + 1
    · subst hk; simp [psum]; omega
    · simp only [hk, if_false]
      by_cases h2 : k ≤ i
      · simp [h2, show k ≤ i + 1 by omega]
      · simp [h2, show ¬ k ≤ i + 1 by omega]

theorem psum_count {α : Type} (l : List α) (f : α → Nat) (k : Nat) :
    psum (fun k => l.countP (fun e => f e + 1 == k)) k = l.countP (fun e => decide (f e < k)) := by
  induction k with
  | zero => simp [psum]
  | succ k ih =>
    rw [psum, ih]
    clear ih
    induction l with
    | nil => rfl
    | cons a l ih =>
      simp only [List.countP_cons]
      have : (if decide (f a < k) then 1 else 0) + (if f a + 1 == k + 1 then 1 else 0)
          = (if decide (f a < k + 1) then 1 else 0) := by
        by_cases h1 : f a < k
        · have : ¬ f a = k := by omega
          simp [h1, this, show f a < k + 1 by omega]
        · by_cases h2 : f a = k
          · simp [h2]
          · simp [h1, h2, show ¬ f a < k + 1 by omega]
      omega

theorem countP_lt_all {α : Type} (l : List α) (f : α → Nat) (n : Nat) (h : ∀ e ∈ l, f e < n) :
    l.countP (fun e => decide (f e < n)) = l.length := by
  rw [List.countP_eq_length]; intro a ha; simpa using h a ha

/-- The prefix sum of a counting array. -/
theorem prefixSum_count {α : Type} {M len n : Nat} (l : List α) (f : α → Nat) (hn : n + 1 = len)
    (hM : l.length < M) :
    prefixSum M (Buf.full len (fun k => l.countP (fun e => f e + 1 == k))) n =
      .ok (Buf.full len (fun k => if k ≤ n then l.countP (fun e => decide (f e < k))
          else l.countP (fun e => f e + 1 == k))) := by
  rw [prefixSum_full]
  · simp only [psum_count]
  · omega
  · rw [psum_count]; exact Nat.lt_of_le_of_lt List.countP_le_length hM

theorem incr_full {M len k : Nat} (f : Nat → Nat) (hk : k < len) (hM : f k + 1 < M) :
    incr M (Buf.full len f) k = .ok (Buf.full len (fun i => if i = k then f i + 1 else f i)) := by
  unfold incr
  rw [Buf.get_full hk, ok_bind, Buf.put_full hk, addM_eq hM]
  congr 2; funext i; split
  · next h => rw [h]
  · rfl

/-- One more counted element. -/
theorem incr_count {α : Type} {M len : Nat} (l : List α) (f : α → Nat) (a : α) (hk : f a + 1 < len)
    (hM : l.length + 1 < M) :
    incr M (Buf.full len (fun k => l.countP (fun e => f e + 1 == k))) (f a + 1) =
      .ok (Buf.full len (fun k => (l ++ [a]).countP (fun e => f e + 1 == k))) := by
  rw [incr_full _ hk]
  · congr 2; funext i
    rw [List.countP_append, List.countP_singleton]
    by_cases h : i = f a + 1
    · subst h; simp
    · have : ¬ f a + 1 = i := fun hh => h hh.symm
      simp [h, this]
  · have := List.countP_le_length (p := fun e => f e + 1 == f a + 1) (l := l)
    omega

/-! ### Sorted lists and counts -/

theorem getElem_lt_iff {α : Type} (l : List α) (f : α → Nat)
    (hs : l.Pairwise (fun a b => f a ≤ f b)) (k j : Nat) (h : j < l.length) :
    f l[j] < k ↔ j < l.countP (fun e => decide (f e < k)) := by
  induction l generalizing j with
  | nil => simp at h
  | cons a t ih =>
    rw [List.pairwise_cons] at hs
    by_cases ha : f a < k
    · rw [List.countP_cons]
      cases j with
      | zero => simp [ha]
      | succ j =>
        simp only [List.getElem_cons_succ, ha, decide_true, if_true]
        rw [ih hs.2 j (by simpa using h)]
        omega
    · have h0 : (a :: t).countP (fun e => decide (f e < k)) = 0 := by
        rw [List.countP_eq_zero]
        intro b hb
        rcases List.mem_cons.1 hb with rfl | hb
        · simpa using ha
        · have := hs.1 b hb; simp; omega
      rw [h0]
      constructor
      · intro hlt
        have hm : (a :: t)[j] ∈ a :: t := List.getElem_mem h
        rcases List.mem_cons.1 hm with e | hb
        · rw [e] at hlt; omega
        · have := hs.1 _ hb; omega
      · intro hlt; omega

/-- In a list sorted by `f`, the slice between two consecutive counts holds the elements with
that value of `f`. -/
theorem slice_eq {α : Type} (l : List α) (f : α → Nat) (hs : l.Pairwise (fun a b => f a ≤ f b))
    (i j : Nat) (h : j < l.length) (h1 : l.countP (fun e => decide (f e < i)) ≤ j)
    (h2 : j < l.countP (fun e => decide (f e < i + 1))) : f l[j] = i := by
  have a := (getElem_lt_iff l f hs (i+1) j h).2 h2
  have b := mt (getElem_lt_iff l f hs i j h).1 (by omega)
  omega

theorem countP_lt_mono {α : Type} (l : List α) (f : α → Nat) {i j : Nat} (h : i ≤ j) :
    l.countP (fun e => decide (f e < i)) ≤ l.countP (fun e => decide (f e < j)) :=
  List.countP_mono_left (by intro a _ h'; simp at *; omega)

theorem take_drop_append {α : Type} (l : List α) {a b : Nat} (h : a ≤ b) :
    l.take a ++ (l.take b).drop a = l.take b := by
  conv => rhs; rw [← List.take_append_drop a (l.take b)]
  rw [List.take_take, Nat.min_eq_left h]

end Gsb
