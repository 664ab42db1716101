import Verif.Model.Permute
import Verif.Spec.Permute
import Verif.Proof.BlockUtil
import Verif.Proof.Csr
import Verif.Par.Seq
import Mathlib.Data.Fintype.Card
import Mathlib.Data.Fintype.EquivFin
/-
Lemmas for permute.h and expand.h.
-/
namespace Gsb
variable {T : Type}

theorem IsPerm.surj {n : Nat} {π : Nat → Nat} (h : IsPerm n π) (i : Nat) (hi : i < n) : ∃ k, k < n ∧ π k = i := by
  let f : Fin n → Fin n := fun k => ⟨π k, h.lt k k.2⟩
  have hf : Function.Injective f := fun a b hab => by
    have : π a = π b := congrArg Fin.val hab
    exact Fin.ext (h.inj a b a.2 b.2 this)
  obtain ⟨k, hk⟩ := (Finite.injective_iff_surjective.1 hf) ⟨i, hi⟩
  exact ⟨k, k.2, congrArg Fin.val hk⟩

/-- The loop of `invert_permutation` on any vector of values below `size`: cell `π k` holds the last such `k`. -/
theorem invert_spec {p : Buf Nat} {n : Nat} {π : Nat → Nat} (hp : ∀ k, k < n → p.get k = .ok (π k)) (hlt : ∀ k, k < n → π k < n) :
    ∃ q, invertPermutation p n = .ok q ∧ q.len = n ∧ (∀ i, (∀ k, k < n → π k ≠ i) → q.dat i = none) ∧
      (∀ k, k < n → (∀ j, k < j → j < n → π j ≠ π k) → q.dat (π k) = some k) := by
  unfold invertPermutation
  obtain ⟨q, h1, h2, h3, h4⟩ := forLoop_inv (f := fun k (pinv : Buf Nat) => do
      let v ← p.get k
      pinv.put v k) (s := Buf.uninit n) (lo := 0) (hi := n)
    (fun m q => q.len = n ∧ (∀ i, (∀ k, k < m → π k ≠ i) → q.dat i = none) ∧
      (∀ k, k < m → (∀ j, k < j → j < m → π j ≠ π k) → q.dat (π k) = some k)) (Nat.zero_le _)
    ⟨rfl, fun i _ => rfl, fun k hk => by omega⟩ (by
      rintro i q - hi ⟨hl, h1, h2⟩
      refine ⟨⟨q.len, fun k => if k = π i then some i else q.dat k⟩, ?_, hl, ?_, ?_⟩
      · simp only [hp i hi, ok_bind]; exact Buf.put_ok (by rw [hl]; exact hlt i hi)
      · intro v hv
        show (if v = π i then some i else q.dat v) = none
        rw [if_neg (fun e => hv i (by omega) e.symm)]
        exact h1 v (fun k hk => hv k (by omega))
      · intro k hk hj
        show (if π k = π i then some i else q.dat (π k)) = some k
        by_cases e : k = i
        · subst e; rw [if_pos rfl]
        · rw [if_neg (fun e' => hj i (by omega) (by omega) e'.symm)]
          exact h2 k (by omega) (fun j h3 h4 => hj j h3 (by omega)))
  exact ⟨q, h1, h2, h3, h4⟩

theorem mapM_inv {α β : Type} {f : α → C β} {l : List α} {l' : List β} (h : l.mapM f = .ok l') :
    l'.length = l.length ∧ ∀ i (h1 : i < l.length) (h2 : i < l'.length), f l[i] = .ok l'[i] := by
  induction l generalizing l' with
  | nil => simp [pure, Except.pure] at h; subst h; simp
  | cons a l ih =>
    rw [List.mapM_cons] at h
    cases ha : f a with
    | error e => rw [ha] at h; cases h
    | ok b =>
      rw [ha, ok_bind] at h
      cases hl : l.mapM f with
      | error e => rw [hl] at h; cases h
      | ok l2 =>
        rw [hl, ok_bind] at h
        cases h
        obtain ⟨h1, h2⟩ := ih hl
        refine ⟨by simp [h1], fun i h3 h4 => ?_⟩
        cases i with
        | zero => exact ha
        | succ i => simp at h3 h4; simpa using h2 i h3 h4

/-- The in-place loop computes `mapM`. -/
theorem mapInPlace_loop {α : Type} {f : α → C α} {l l' : List α} (h : l.mapM f = .ok l') :
    forLoop 0 l.length (Buf.ofList l) (fun i y => do
      let v ← y.get i
      let v' ← f v
      y.put i v') = .ok (Buf.ofList l') := by
  obtain ⟨hl, hg⟩ := mapM_inv h
  refine forLoop_closed' (fun i => Buf.ofList (l'.take i ++ l.drop i)) (Nat.zero_le _) (by simp) (by simp [List.take_of_length_le (Nat.le_of_eq hl)]) ?_
  intro i _ hi
  have hi' : i < l'.length := by omega
  have e1 : (Buf.ofList (l'.take i ++ l.drop i)).get i = .ok l[i] := by
    refine Buf.get_ok (by simp; omega) ?_
    have : (List.take i l').length = i := by simp; omega
    simp only [Buf.ofList_dat]
    rw [List.getElem?_append_right (by omega), this, Nat.sub_self, List.getElem?_drop]
    simp [hi]
  rw [e1, ok_bind, hg i hi hi', ok_bind, Buf.put_ok (by simp; omega)]
  congr 1
  refine Buf.ext' (by simp; omega) (fun k => ?_)
  show (if k = i then some l'[i] else (l'.take i ++ l.drop i)[k]?) = (l'.take (i + 1) ++ l.drop (i + 1))[k]?
  have t1 : (List.take i l').length = i := by simp; omega
  have t2 : (List.take (i + 1) l').length = i + 1 := by simp; omega
  rcases Nat.lt_trichotomy k i with h1 | h1 | h1
  · rw [if_neg (by omega), List.getElem?_append_left (by omega), List.getElem?_append_left (by omega)]
    simp [List.getElem?_take, h1]; intro h; omega
  · subst h1; rw [if_pos rfl, List.getElem?_append_left (by omega)]
    simp [List.getElem?_take, hi']
  · rw [if_neg (by omega), List.getElem?_append_right (by omega), List.getElem?_append_right (by omega), t1, t2,
      List.getElem?_drop, List.getElem?_drop]
    congr 1; omega

theorem Good.mapInPlace {α : Type} (f : α → C α) (b n : Nat) : Good (mapInPlaceP f b n) :=
  Good.parFor (F := fun i l => l = (b, i)) (fun _ _ _ => ⟨rfl, fun _ => Foot.read (fun _ _ => ⟨rfl, trivial⟩)⟩)
    (fun _ _ _ => Good.load (fun _ => Good.read (fun _ _ => Good.store (Good.ret 0)))) (by
      rintro j k _ h _ l rfl h'
      rw [Prod.mk.injEq] at h'; omega)

theorem Sim.mapInPlace {α : Type} (f : α → C α) (b n : Nat) : Sim b 0 (mapInPlaceP f b n) (fun y => forLoop 0 n y (fun i y => do
      let v ← y.get i
      let v' ← f v
      y.put i v')) :=
  Sim.parFor (fun i _ _ => by
    have := Sim.update (T := α) (b := b) (o := 0) (i := i) (h := f) 0
    simpa only [Nat.zero_add] using this)

theorem Good.invert {p : Buf Nat} {n b : Nat} {π : Nat → Nat} (hp : ∀ k, k < n → p.get k = .ok (π k)) (hi : IsPerm n π) :
    Good (invertPermutationP p n b) :=
  Good.parFor (F := fun k l => l = (b, π k)) (fun k _ h => Foot.read (fun v hv => by
      rw [hp k h] at hv; cases hv; exact ⟨rfl, trivial⟩))
    (fun _ _ _ => Good.read (fun _ _ => Good.store (Good.ret 0))) (by
      rintro j k - h1 h2 l rfl h'
      rw [Prod.mk.injEq] at h'
      have := hi.inj j k (by omega) h2 h'.2
      omega)

/-- `y[i] = v`. -/
theorem Sim.write {b i : Nat} {v : T} (r : Nat) : Sim b 0 (.store (b, i) (some v) (.ret r)) (fun y => y.put i v) := by
  intro y y' hy
  obtain ⟨h3, h4⟩ := arr_put (b := b) (o := 0) hy
  rw [Nat.zero_add] at h3 h4
  refine ⟨r, ?_⟩
  rw [exec_store]
  cases h5 : arr b 0 y (b, i) with
  | none => exact absurd h5 h3
  | some c => simp only [exec_ret, h4]

theorem Sim.invert (p : Buf Nat) (n b : Nat) : Sim b 0 (invertPermutationP p n b) (fun y => forLoop 0 n y (fun k pinv => do
    let v ← p.get k
    pinv.put v k)) :=
  Sim.parFor (fun _ _ _ => Sim.read (fun _ _ => Sim.write 0))

/-! ### Renaming the coordinates -/

section
variable [Add T] [Mul T]

theorem rowEntries_relabel {f g : Nat → Nat} {es : List (Ent T)} {i : Nat} (hf : ∀ e ∈ es, f e.row = f i → e.row = i) :
    rowEntries (relabel f g es) (f i) = relabel f g (rowEntries es i) := by
  unfold rowEntries relabel
  rw [List.filter_map]
  congr 1
  refine List.filter_congr (fun e he => ?_)
  simp only [Function.comp]
  rw [Bool.eq_iff_iff, beq_iff_eq, beq_iff_eq]
  exact ⟨hf e he, fun h => by rw [h]⟩

theorem accumulate_relabel {f g : Nat → Nat} {l : List (Ent T)} {x x' : Nat → T} {n : Nat} (hc : ∀ e ∈ l, e.col < n)
    (hx : Moved n g x x') (a : T) : accumulate x' a (relabel f g l) = accumulate x a l := by
  unfold accumulate relabel
  rw [List.foldl_map]
  induction l generalizing a with
  | nil => rfl
  | cons e l ih =>
    rw [List.foldl_cons, List.foldl_cons]
    dsimp only
    rw [hx e.col (hc e List.mem_cons_self)]
    exact ih (fun e' h => hc e' (List.mem_cons_of_mem _ h)) _

theorem spmvInOrder_relabel {f g : Nat → Nat} {es : List (Ent T)} {x x' y y' : Nat → T} {rows columns : Nat}
    (hin : InRange es rows columns) (hf : ∀ i j, i < rows → j < rows → f i = f j → i = j) (hx : Moved columns g x x')
    (hy : Moved rows f y y') : Moved rows f (spmvInOrder es x y) (spmvInOrder (relabel f g es) x' y') := by
  intro i hi
  unfold spmvInOrder
  rw [rowEntries_relabel (fun e he h => hf _ _ (hin e he).1 hi h), hy i hi]
  exact accumulate_relabel (fun e he => (hin e (List.mem_of_mem_filter he)).2) hx _

theorem rowByColumn_relabel {f g : Nat → Nat} {es : List (Ent T)} {i : Nat} (hf : ∀ e ∈ es, f e.row = f i → e.row = i)
    (hg : ∀ a ∈ es, ∀ b ∈ es, a.col ≤ b.col ↔ g a.col ≤ g b.col) :
    rowByColumn (relabel f g es) (f i) = relabel f g (rowByColumn es i) := by
  unfold rowByColumn
  rw [rowEntries_relabel hf]
  unfold relabel
  refine (List.map_mergeSort (fun a ha b hb => ?_)).symm
  simp only [decide_eq_decide]
  exact hg a (List.mem_of_mem_filter ha) b (List.mem_of_mem_filter hb)

theorem spmvExact_relabel {f g : Nat → Nat} {es : List (Ent T)} {x x' y y' : Nat → T} {rows columns : Nat}
    (hin : InRange es rows columns) (hf : ∀ i j, i < rows → j < rows → f i = f j → i = j)
    (hg : ∀ i j, i < columns → j < columns → (i ≤ j ↔ g i ≤ g j)) (hx : Moved columns g x x')
    (hy : Moved rows f y y') : Moved rows f (spmvExact es x y) (spmvExact (relabel f g es) x' y') := by
  intro i hi
  unfold spmvExact
  rw [rowByColumn_relabel (fun e he h => hf _ _ (hin e he).1 hi h) (fun a ha b hb => hg _ _ (hin a ha).2 (hin b hb).2), hy i hi]
  exact accumulate_relabel (fun e he => (hin e (List.mem_of_mem_filter ((List.mergeSort_perm _ _).mem_iff.1 he))).2) hx _

/-- Rows into which nothing is moved keep their value. -/
theorem spmvExact_relabel_else {f g : Nat → Nat} {es : List (Ent T)} {x y : Nat → T} {rows columns j : Nat}
    (hin : InRange es rows columns) (hj : ∀ i, i < rows → f i ≠ j) : spmvExact (relabel f g es) x y j = y j := by
  have : rowEntries (relabel f g es) j = [] := by
    unfold rowEntries relabel
    rw [List.filter_eq_nil_iff]
    intro e he
    obtain ⟨e', he', rfl⟩ := List.mem_map.1 he
    simpa using hj _ (hin e' he').1
  unfold spmvExact rowByColumn
  rw [this]
  simp [accumulate]

end

theorem spmvExact_colMajor [Add T] [Mul T] {ε : Type} [NZ ε T] (es : List ε) (x y : Nat → T) :
    spmvExact (ents (sortTriplets es false)) x y = spmvExact (ents es) x y := by
  have e : ents (sortTriplets es false) = (ents es).mergeSort (fun a b => decide (a.col < b.col ∨ a.col = b.col ∧ a.row ≤ b.row)) := by
    unfold ents sortTriplets pssSort
    simp only [Bool.false_eq_true, if_false]
    refine List.map_mergeSort (fun a _ b _ => ?_)
    rw [Bool.eq_iff_iff]
    simp only [leOf, ltColMajor, Bool.not_eq_true', Bool.or_eq_false_iff, Bool.and_eq_false_iff,
      decide_eq_false_iff_not, beq_eq_false_iff_ne, decide_eq_true_eq]
    omega
  funext i
  unfold spmvExact
  congr 1
  have h1 : rowEntries (ents (sortTriplets es false)) i = rowByColumn (ents es) i := by
    rw [e]
    refine rowEntries_mergeSort ⟨fun a b c => ?_, fun a b => ?_⟩ _ i (fun a _ b _ h1 h2 => ?_)
    · simp only [decide_eq_true_eq]; omega
    · simp only [Bool.or_eq_true, decide_eq_true_eq]; omega
    · simp only [decide_eq_decide]; omega
  show (rowEntries (ents (sortTriplets es false)) i).mergeSort _ = _
  rw [h1]
  refine List.mergeSort_of_pairwise ?_
  refine List.pairwise_mergeSort (fun a b c h1 h2 => ?_) (fun a b => ?_) _
  · simp only [decide_eq_true_eq] at *; omega
  · simp only [Bool.or_eq_true, decide_eq_true_eq]; omega

end Gsb
