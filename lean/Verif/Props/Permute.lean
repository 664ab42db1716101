import Verif.Proof.Expand
import Verif.Props.Bits
import Verif.Props.Schedule
import Verif.Props.Coo
import Mathlib.Tactic.IntervalCases
/-
C32–C34: permute.h and expand.h.
-/
namespace Gsb
variable {T : Type}

/-- `EverySchedule` for arrays of any contents: whatever else `F` is in memory, every run of `p b`, with `y` in array `b`,
is free of races and undefined behaviour, ends, and leaves `y'` in `b` and everything else as it was. -/
def EveryScheduleBuf {α : Type} (p : Nat → Prog α) (y y' : Buf α) : Prop :=
  ∀ (b : Nat) (F : Mem α), Disj (arr b 0 y) F → FiniteMem F → AllSchedules (p b) ((arr b 0 y).union F) ((arr b 0 y').union F)

theorem everyScheduleBuf_of_good {α : Type} {p : Nat → Prog α} {f : Buf α → C (Buf α)} {y y' : Buf α} (hg : ∀ b, Good (p b))
    (hs : ∀ b, Sim b 0 (p b) f) (h : f y = .ok y') : EveryScheduleBuf p y y' :=
  fun b _ hd hf => allSchedules_of_safe hd (finiteMem_union hf) (fun n => Good.safe (hg b) (hs b) h n)

/-! ### C32 -/

/-- **C32.** For every permutation vector, `invert_permutation` gives its inverse, which is a permutation too, with no
cell left unwritten; inverting again gives the original vector. -/
theorem C32_invert (p : Buf Nat) (n : Nat) (π : Nat → Nat) (hp : ∀ k, k < n → p.get k = .ok (π k)) (hπ : IsPerm n π) :
    ∃ q σ p', invertPermutation p n = .ok q ∧ q.len = n ∧ (∀ k, k < n → q.get k = .ok (σ k)) ∧ IsPerm n σ ∧
      (∀ k, k < n → σ (π k) = k ∧ π (σ k) = k) ∧
      invertPermutation q n = .ok p' ∧ ∀ k, k < n → p'.get k = p.get k := by
  obtain ⟨q, h1, h2, -, h4⟩ := invert_spec hp hπ.lt
  have hq : ∀ k, k < n → q.get (π k) = .ok k := fun k hk =>
    Buf.get_ok (by rw [h2]; exact hπ.lt k hk) (h4 k hk (fun j hj hjn e => by have := hπ.inj j k hjn hk e; omega))
  let σ : Nat → Nat := fun i => (q.dat i).getD 0
  have hσ : ∀ k, k < n → σ (π k) = k := fun k hk => by
    have := h4 k hk (fun j hj hjn e => by have := hπ.inj j k hjn hk e; omega)
    simp [σ, this]
  have hσ2 : ∀ i, i < n → σ i < n ∧ π (σ i) = i := fun i hi => by
    obtain ⟨k, hk, rfl⟩ := hπ.surj i hi
    rw [hσ k hk]; exact ⟨hk, rfl⟩
  have hgσ : ∀ k, k < n → q.get k = .ok (σ k) := fun i hi => by
    obtain ⟨k, hk, rfl⟩ := hπ.surj i hi
    rw [hq k hk, hσ k hk]
  have hPσ : IsPerm n σ := ⟨fun i hi => (hσ2 i hi).1, fun i j hi hj e => by
    rw [← (hσ2 i hi).2, ← (hσ2 j hj).2, e]⟩
  obtain ⟨p', g1, g2, -, g4⟩ := invert_spec hgσ hPσ.lt
  refine ⟨q, σ, p', h1, h2, hgσ, hPσ, fun k hk => ⟨hσ k hk, (hσ2 k hk).2⟩, g1, fun k hk => ?_⟩
  have := g4 (π k) (hπ.lt k hk) (fun j hj hjn e => by have := hPσ.inj j (π k) hjn (hπ.lt k hk) e; omega)
  rw [hσ k hk] at this
  rw [hp k hk]
  exact Buf.get_ok (by omega) this

/-- **C32**, round trip: permuting index arrays or matrices by `p` and then by its inverse restores every entry. -/
theorem C32_round_trip (p : Buf Nat) (n : Nat) (π : Nat → Nat) (hp : ∀ k, k < n → p.get k = .ok (π k)) (hπ : IsPerm n π) :
    ∃ q, invertPermutation p n = .ok q ∧
      (∀ ind : List Nat, (∀ i ∈ ind, i < n) → ∃ ind', permuteIndeces p ind = .ok ind' ∧ permuteIndeces q ind' = .ok ind) ∧
      (∀ (T : Type) (es : List (Triplet T)), InRange es n n →
        ∃ es', permuteTriplets p es = .ok es' ∧ InRange es' n n ∧ permuteTriplets q es' = .ok es) ∧
      (∀ (T : Type) (es : List (Element T)), InRange (ents es) n n →
        ∃ es', permuteElements p es = .ok es' ∧ InRange (ents es') n n ∧ permuteElements q es' = .ok es) := by
  obtain ⟨q, σ, -, h1, -, h3, h4, h5, -⟩ := C32_invert p n π hp hπ
  refine ⟨q, h1, fun ind hi => ?_, fun T es hin => ?_, fun T es hin => ?_⟩
  · refine ⟨ind.map π, mapM_ok _ _ _ (fun i h => hp i (hi i h)), ?_⟩
    unfold permuteIndeces permuteOne
    rw [mapM_ok _ _ σ (fun i h => by
      obtain ⟨j, hj, rfl⟩ := List.mem_map.1 h
      exact h3 _ (hπ.lt j (hi j hj))), List.map_map]
    congr 1
    conv => rhs; rw [← List.map_id ind]
    exact List.map_congr_left (fun i h => (h5 i (hi i h)).1)
  · refine ⟨relabel π π es, mapM_ok _ _ _ (fun e h => ?_), fun e h => ?_, ?_⟩
    · unfold permuteTriplet
      rw [hp _ (hin e h).1, ok_bind, hp _ (hin e h).2, ok_bind]
    · obtain ⟨e', h', rfl⟩ := List.mem_map.1 h
      exact ⟨hπ.lt _ (hin e' h').1, hπ.lt _ (hin e' h').2⟩
    · unfold permuteTriplets
      rw [mapM_ok _ _ (fun e : Ent T => ⟨σ e.row, σ e.col, e.val⟩) (fun e h => by
        obtain ⟨e', h', rfl⟩ := List.mem_map.1 h
        unfold permuteTriplet
        rw [h3 _ (hπ.lt _ (hin e' h').1), ok_bind, h3 _ (hπ.lt _ (hin e' h').2), ok_bind])]
      unfold relabel
      rw [List.map_map]
      congr 1
      conv => rhs; rw [← List.map_id es]
      refine List.map_congr_left (fun e h => ?_)
      simp only [Function.comp, (h5 _ (hin e h).1).1, (h5 _ (hin e h).2).1, id_eq]
  · have hin' : ∀ e ∈ es, e.row < n ∧ e.col < n := fun e h => hin _ (List.mem_map_of_mem h)
    refine ⟨es.map (moveElement π), mapM_ok _ _ _ (fun e h => ?_), fun e h => ?_, ?_⟩
    · unfold permuteElement moveElement
      rw [hp _ (hin' e h).1, ok_bind, hp _ (hin' e h).2, ok_bind]
    · obtain ⟨e', h', rfl⟩ := List.mem_map.1 h
      obtain ⟨e2, h2, rfl⟩ := List.mem_map.1 h'
      exact ⟨hπ.lt _ (hin' e2 h2).1, hπ.lt _ (hin' e2 h2).2⟩
    · unfold permuteElements
      rw [mapM_ok _ _ (moveElement σ) (fun e h => by
        obtain ⟨e', h', rfl⟩ := List.mem_map.1 h
        unfold permuteElement moveElement
        rw [h3 _ (hπ.lt _ (hin' e' h').1), ok_bind, h3 _ (hπ.lt _ (hin' e' h').2), ok_bind])]
      rw [List.map_map]
      congr 1
      conv => rhs; rw [← List.map_id es]
      refine List.map_congr_left (fun e h => ?_)
      simp only [Function.comp, moveElement, (h5 _ (hin' e h).1).1, (h5 _ (hin' e h).2).1, id_eq]

/-- **C32** under every schedule: the parallel inversion writes every cell once and leaves the serial result. -/
theorem C32_invert_schedules (p : Buf Nat) (n : Nat) (π : Nat → Nat) (hp : ∀ k, k < n → p.get k = .ok (π k)) (hπ : IsPerm n π) :
    ∃ q, invertPermutation p n = .ok q ∧ EveryScheduleBuf (invertPermutationP p n) (Buf.uninit n) q := by
  obtain ⟨q, h1, -⟩ := invert_spec hp hπ.lt
  exact ⟨q, h1, everyScheduleBuf_of_good (fun b => Good.invert hp hπ) (fun b => Sim.invert p n b) h1⟩

/-- The parallel loops of `permute_indeces` and `expand_indeces` are of this form: on every
schedule they compute what the serial loop computes, whenever that is defined. -/
theorem C32_in_place_schedules {α : Type} (f : α → C α) (l l' : List α) (h : l.mapM f = .ok l') :
    EveryScheduleBuf (fun b => mapInPlaceP f b l.length) (Buf.ofList l) (Buf.ofList l') :=
  everyScheduleBuf_of_good (fun b => Good.mapInPlace f b _) (fun b => Sim.mapInPlace f b _) (mapInPlace_loop h)

/-- **C32** under every schedule, the permuting loops. -/
theorem C32_permute_schedules (perm : Buf Nat) (ind ind' : List Nat) (es es' : List (Triplet T))
    (h : permuteIndeces perm ind = .ok ind') (h' : permuteTriplets perm es = .ok es') :
    EveryScheduleBuf (fun b => permuteIndecesP perm b ind.length) (Buf.ofList ind) (Buf.ofList ind') ∧
    EveryScheduleBuf (fun b => permuteTripletsP perm b es.length) (Buf.ofList es) (Buf.ofList es') :=
  ⟨C32_in_place_schedules _ ind ind' h, C32_in_place_schedules _ es es' h'⟩

/-- C32, what happens otherwise: a vector of in-range values that repeats one is accepted silently, and some cell of
the result is never written. -/
theorem C32_not_a_permutation (p : Buf Nat) (n : Nat) (π : Nat → Nat) (hp : ∀ k, k < n → p.get k = .ok (π k))
    (hlt : ∀ k, k < n → π k < n) (j k : Nat) (hj : j < n) (hk : k < n) (hne : j ≠ k) (e : π j = π k) :
    ∃ q i, invertPermutation p n = .ok q ∧ i < n ∧ q.get i = .error .uninit := by
  obtain ⟨q, h1, h2, h3, -⟩ := invert_spec hp hlt
  let f : Fin n → Fin n := fun k => ⟨π k, hlt k k.2⟩
  have hf : ¬ Function.Injective f := fun hi => by
    have := @hi ⟨j, hj⟩ ⟨k, hk⟩ (Fin.ext e)
    exact hne (congrArg Fin.val this)
  rw [Finite.injective_iff_surjective] at hf
  obtain ⟨i, hi⟩ := not_forall.1 hf
  refine ⟨q, i, h1, i.2, ?_⟩
  have := h3 i (fun k hk e => hi ⟨⟨k, hk⟩, Fin.ext e⟩)
  simp [Buf.get, h2, this]

example : ∃ q, invertPermutation (Buf.ofList [2, 0, 3, 1]) 4 = .ok q ∧ q.toList 4 = .ok [1, 3, 0, 2] :=
  ⟨_, rfl, rfl⟩
example : IsPerm 4 (fun k => [2, 0, 3, 1].getD k 0) ∧ ∀ k, k < 4 → (Buf.ofList [2, 0, 3, 1]).get k = .ok ([2, 0, 3, 1].getD k 0) :=
  ⟨⟨by decide, fun j k hj hk => by interval_cases j <;> interval_cases k <;> simp⟩, by decide⟩

/-! ### C33 -/

/-- The triplets given by three parallel arrays. -/
def triples (I J : List Nat) (V : List T) : List (Ent T) := List.zipWith (fun (ij : Nat × Nat) v => ⟨ij.1, ij.2, v⟩) (I.zip J) V

/-- **C33**: permuting a matrix is renaming its coordinates — for triplets, and for separate index arrays, rows by one
permutation and columns by another. -/
theorem C33_renames (p q : Buf Nat) (n m : Nat) (π σ : Nat → Nat) (hp : ∀ k, k < n → p.get k = .ok (π k))
    (hq : ∀ k, k < m → q.get k = .ok (σ k)) (es : List (Triplet T)) (I J : List Nat) (V : List T)
    (hin : InRange es n n) (hI : ∀ i ∈ I, i < n) (hJ : ∀ j ∈ J, j < m) :
    permuteTriplets p es = .ok (relabel π π es) ∧
    ∃ I' J', permuteIndeces p I = .ok I' ∧ permuteIndeces q J = .ok J' ∧ triples I' J' V = relabel π σ (triples I J V) := by
  refine ⟨mapM_ok _ _ _ (fun e h => ?_), I.map π, J.map σ, mapM_ok _ _ _ (fun i h => hp i (hI i h)),
    mapM_ok _ _ _ (fun i h => hq i (hJ i h)), ?_⟩
  · unfold permuteTriplet
    rw [hp _ (hin e h).1, ok_bind, hp _ (hin e h).2, ok_bind]
  · unfold triples relabel
    rw [List.zip_map, List.zipWith_map_left, List.map_zipWith]
    rfl

/-- **C33** for COO, no law of arithmetic: multiplying the permuted matrix with the permuted vectors gives the permuted
result, rounding included. -/
theorem C33_coo [Add T] [Mul T] (p : Buf Nat) (n : Nat) (π : Nat → Nat) (hp : ∀ k, k < n → p.get k = .ok (π k)) (hπ : IsPerm n π)
    (es : List (Triplet T)) (hin : InRange es n n) (x x' y y' : Nat → T) (hx : Moved n π x x') (hy : Moved n π y y') :
    ∃ es' z z', permuteTriplets p es = .ok es' ∧
      spmvCooArray (Buf.ofList es) es.length (Buf.full n x) 0 (Buf.full n y) 0 = .ok (Buf.full n z) ∧
      spmvCooArray (Buf.ofList es') es'.length (Buf.full n x') 0 (Buf.full n y') 0 = .ok (Buf.full n z') ∧
      Moved n π z z' := by
  obtain ⟨h1, -⟩ := C33_renames (T := T) p p n n π π hp hp es [] [] [] hin (by simp) (by simp)
  have hin' : InRange (relabel π π es) n n := by
    intro e h
    obtain ⟨e', h', rfl⟩ := List.mem_map.1 h
    exact ⟨hπ.lt _ (hin e' h').1, hπ.lt _ (hin e' h').2⟩
  have id1 : ∀ l : List (Ent T), ents l = l := fun l => List.map_id l
  refine ⟨_, _, _, h1, C04_coo_array_spmv n n es (by rw [id1]; exact hin) x y,
    C04_coo_array_spmv n n _ (by rw [id1]; exact hin') x' y', ?_⟩
  rw [id1, id1]
  exact spmvInOrder_relabel hin hπ.inj hx hy

/-- **C33** for CSR, in a commutative setting (permuting columns changes the order of summation): rows permuted by `π`
and columns by `σ`. -/
theorem C33_csr [AddCommMonoid T] [Mul T] (M rows columns : Nat) (π σ : Nat → Nat) (hπ : IsPerm rows π) (hσ : IsPerm columns σ)
    (es : List (Triplet T)) (hin : InRange es rows columns) (hnnz : es.length < M) (hrows : rows + 1 < M) (hcols : columns < M)
    (x x' y y' : Nat → T) (hx : Moved columns σ x x') (hy : Moved rows π y y') :
    ∃ A es1 A' es1' z z', cooToCsr M es rows columns = .ok (A, es1) ∧
      cooToCsr M (relabel π σ es) rows columns = .ok (A', es1') ∧
      A.spmv (Buf.full columns x) 0 (Buf.full rows y) 0 = .ok (Buf.full rows z) ∧
      A'.spmv (Buf.full columns x') 0 (Buf.full rows y') 0 = .ok (Buf.full rows z') ∧
      Moved rows π z z' := by
  have hin' : InRange (relabel π σ es) rows columns := by
    intro e h
    obtain ⟨e', h', rfl⟩ := List.mem_map.1 h
    exact ⟨hπ.lt _ (hin e' h').1, hσ.lt _ (hin e' h').2⟩
  have id1 : ∀ l : List (Ent T), ents l = l := fun l => List.map_id l
  obtain ⟨A, es1, h1, h2, -⟩ := C01_csr_spmv M rows columns es hnnz hrows hcols (by rw [id1]; exact hin) columns rows
    (Nat.le_refl _) (Nat.le_refl _) x y
  obtain ⟨A', es1', h1', h2', -⟩ := C01_csr_spmv M rows columns (relabel π σ es) (by simpa [relabel] using hnnz) hrows hcols
    (by rw [id1]; exact hin') columns rows (Nat.le_refl _) (Nat.le_refl _) x' y'
  refine ⟨A, es1, A', es1', _, _, h1, h1', h2, h2', ?_⟩
  rw [id1, id1, spmvExact_eq_sum, spmvExact_eq_sum, ← spmvInOrder_eq_sum, ← spmvInOrder_eq_sum]
  exact spmvInOrder_relabel hin hπ.inj hx hy

example : permuteTriplets (Buf.ofList [2, 0, 1]) [(⟨0, 1, 5⟩ : Ent Int), ⟨2, 2, 7⟩] = .ok [⟨2, 0, 5⟩, ⟨1, 1, 7⟩] := rfl

/-! ### C34 -/

/-- **C34**, slot size: 0 if all blocks are empty, else the least power of two not below any of the block sizes. -/
theorem C34_block_size (M k : Nat) (sizes : List Nat) (hs : ∀ s ∈ sizes, s ≤ 2 ^ k) (hk : k ≤ 63) (hM : 2 ^ k < M) :
    ((∀ s ∈ sizes, s = 0) → expandBlockSize M sizes = 0) ∧
    ((∃ s ∈ sizes, s ≠ 0) → ∃ j, expandBlockSize M sizes = 2 ^ j) ∧
    (∀ s ∈ sizes, s ≤ expandBlockSize M sizes) ∧
    (∀ j, (∀ s ∈ sizes, s ≤ 2 ^ j) → expandBlockSize M sizes ≤ 2 ^ j) := by
  obtain ⟨h1, -, h3⟩ := foldMax_spec sizes 0
  unfold expandBlockSize
  generalize sizes.foldl (fun mx s => if mx < s then s else mx) 0 = m at *
  by_cases hm : m = 0
  · subst hm
    rw [nextPowerOfTwo_zero, Nat.zero_mod]
    refine ⟨fun _ => rfl, fun ⟨s, h, hn⟩ => absurd (h1 s h) (by omega), h1, fun j _ => Nat.zero_le _⟩
  · have hmem : m ∈ sizes := by rcases h3 with h | h; exact absurd h hm; exact h
    have hmk := hs m hmem
    have h63 : 2 ^ k ≤ 2 ^ 63 := Nat.pow_le_pow_right (by omega) hk
    obtain ⟨j, e1, e2, e3⟩ := C27_next_power_of_two m (by omega) (by omega)
    have hj := e3 k hmk
    rw [e1, Nat.mod_eq_of_lt (by omega)]
    exact ⟨fun h => absurd (h m hmem) hm, fun _ => ⟨j, rfl⟩, fun s h => Nat.le_trans (h1 s h) e2, fun i hi => e3 i (hi m hmem)⟩

/-- **C34**, one index: `expand_index` puts index `i` at the same position of its block's slot. -/
theorem C34_expand_index (M : Nat) (off : List Nat) (blocks total bs i : Nat) (P : Partition off blocks total)
    (B : BlocksAtMost off bs) (hi : i < total) (hM : blocks * bs ≤ M) (hb : blocks < M) (ht : total ≤ M) :
    ∃ j, expandIndex M off blocks bs i = .ok j ∧ ExpandsTo off bs i j :=
  ⟨_, expandIndex_spec P B hi hM hb ht, expandsTo_slot P hi⟩

/-- **C34**: the map is a function, keeps the order strictly (so it is one to one), and stays within `blocks * bs`. -/
theorem C34_order (off : List Nat) (blocks total bs i i' j j' : Nat) (P : Partition off blocks total) (B : BlocksAtMost off bs)
    (h : ExpandsTo off bs i j) (h' : ExpandsTo off bs i' j') : (i < i' ↔ j < j') ∧ (i = i' ↔ j = j') ∧ j < blocks * bs := by
  obtain ⟨h1, rfl⟩ := expandsTo_unique P B h
  obtain ⟨h2, rfl⟩ := expandsTo_unique P B h'
  have a := slot_le_iff P B h1 h2
  have b := slot_le_iff P B h2 h1
  refine ⟨by omega, by omega, slot_lt P B h1⟩

/-- **C34**, arrays of indices. -/
theorem C34_expand_indeces (M k : Nat) (sizes ind : List Nat) (hs : ∀ s ∈ sizes, s ≤ 2 ^ k) (hk : k ≤ 63)
    (hM : sizes.length * 2 ^ k < M) (hk' : 2 ^ k < M) (hsum : sizes.sum < M) (hin : ∀ i ∈ ind, i < sizes.sum) :
    ∃ ind', expandIndeces M sizes ind = .ok (expandBlockSize M sizes, ind') ∧
      List.Forall₂ (ExpandsTo (sizeToOffset M sizes) (expandBlockSize M sizes)) ind ind' := by
  have hlt : ∀ s ∈ sizes, s < M := fun s h => Nat.lt_of_le_of_lt (hs s h) hk'
  obtain ⟨o1, o2⟩ := C22_size_to_offset M sizes hlt
  have P := C22_partition M sizes hsum
  obtain ⟨-, -, b3, b4⟩ := C34_block_size M k sizes hs hk hk'
  have B := blocksAtMost_sizes hsum o2 o1 b3
  have hbs := Nat.mul_le_mul_left sizes.length (b4 k hs)
  have hl : sizes.length < M := by
    have : sizes.length * 1 ≤ sizes.length * 2 ^ k := Nat.mul_le_mul_left _ Nat.one_le_two_pow
    omega
  refine ⟨ind.map (slot (sizeToOffset M sizes) sizes.length (expandBlockSize M sizes)), ?_, ?_⟩
  · unfold expandIndeces
    dsimp only
    rw [mapM_ok _ _ _ (fun i h => expandIndex_spec P B (hin i h) (by omega) hl (by omega)), ok_bind]
  · rw [List.forall₂_map_right_iff, List.forall₂_same]
    exact fun i h => expandsTo_slot P (hin i h)

/-- **C34**, the `expanded` tool end to end: block ids, column sort, expansion.  The asserts hold; the result is the
matrix with every coordinate moved to its slot, of dimension number of blocks times slot size; and multiplying it with
vectors whose entries are moved the same way gives the result of the original matrix moved the same way — bit for
bit, no law of arithmetic — and leaves the padding of `y` alone. -/
theorem C34_expanded [Add T] [Mul T] (M k : Nat) (sizes : List Nat) (es : List (Element T)) (hs : ∀ s ∈ sizes, s ≤ 2 ^ k)
    (hk : k ≤ 63) (hM : sizes.length * 2 ^ k + 1 < M) (hk' : 2 ^ k < M) (hsum : sizes.sum < M)
    (hgrid : sizes.length * sizes.length ≤ M) (hnnz : es.length < M) (hin : InRange (ents es) sizes.sum sizes.sum) :
    ∃ n' es' φ, expandedTool M sizes es = .ok (n', es') ∧ n' = sizes.length * expandBlockSize M sizes ∧
      (∀ i, i < sizes.sum → ExpandsTo (sizeToOffset M sizes) (expandBlockSize M sizes) i (φ i)) ∧
      (ents es').Perm (relabel φ φ (ents es)) ∧ InRange (ents es') n' n' ∧
      ∀ x x' y y' : Nat → T, Moved sizes.sum φ x x' → Moved sizes.sum φ y y' →
        ∃ A es1 z', cooToCsr M es' n' n' = .ok (A, es1) ∧
          A.spmv (Buf.full n' x') 0 (Buf.full n' y') 0 = .ok (Buf.full n' z') ∧
          Moved sizes.sum φ (spmvExact (ents es) x y) z' ∧
          ∀ j, j < n' → (∀ i, i < sizes.sum → φ i ≠ j) → z' j = y' j := by
  have hlt : ∀ s ∈ sizes, s < M := fun s h => Nat.lt_of_le_of_lt (hs s h) hk'
  obtain ⟨o1, o2⟩ := C22_size_to_offset M sizes hlt
  have P := C22_partition M sizes hsum
  obtain ⟨-, -, b3, b4⟩ := C34_block_size M k sizes hs hk hk'
  have B := blocksAtMost_sizes hsum o2 o1 b3
  have hbs := Nat.mul_le_mul_left sizes.length (b4 k hs)
  have hl : sizes.length < M := by
    have : sizes.length * 1 ≤ sizes.length * 2 ^ k := Nat.mul_le_mul_left _ Nat.one_le_two_pow
    omega
  generalize hoff : sizeToOffset M sizes = off at *
  generalize hbsz : expandBlockSize M sizes = bs at *
  have hid := calculateBlockId_spec (es := es) P P hl hl hgrid hin
  let es1 := sortTriplets (es.map (withKey (blockKey off sizes.length off sizes.length))) false
  have hperm : es1.Perm (es.map (withKey (blockKey off sizes.length off sizes.length))) := by
    show (pssSort ltColMajor _).Perm _
    exact List.mergeSort_perm _ _
  have hmem : ∀ e ∈ es1, e.row < sizes.sum ∧ e.col < sizes.sum ∧ e.block = blockKey off sizes.length off sizes.length e.row e.col := by
    intro e he
    obtain ⟨e', h', rfl⟩ := List.mem_map.1 (hperm.mem_iff.1 he)
    have := hin _ (List.mem_map_of_mem h')
    exact ⟨this.1, this.2, rfl⟩
  have hentsK : ents (es.map (withKey (blockKey off sizes.length off sizes.length))) = ents es := by
    unfold ents; rw [List.map_map]; rfl
  have hents : ents (es1.map (moveElement (slot off sizes.length bs))) =
      relabel (slot off sizes.length bs) (slot off sizes.length bs) (ents es1) := by
    unfold ents relabel; rw [List.map_map, List.map_map]; rfl
  have hp1 : (ents es1).Perm (ents es) := by
    rw [← hentsK]; exact hperm.map _
  have hin1 : InRange (ents es1) sizes.sum sizes.sum := fun e he => hin e (hp1.mem_iff.1 he)
  have hin' : InRange (ents (es1.map (moveElement (slot off sizes.length bs)))) (sizes.length * bs) (sizes.length * bs) := by
    rw [hents]
    intro e he
    obtain ⟨e', h', rfl⟩ := List.mem_map.1 he
    exact ⟨slot_lt P B (hin1 e' h').1, slot_lt P B (hin1 e' h').2⟩
  refine ⟨sizes.length * bs, es1.map (moveElement (slot off sizes.length bs)), slot off sizes.length bs, ?_, rfl,
    fun i hi => expandsTo_slot P hi, ?_, hin', ?_⟩
  · unfold expandedTool expandElements
    dsimp only
    rw [hoff, hid, ok_bind, hbsz]
    show (do
      let r ← (do
        let es ← es1.mapM (expandElement M off sizes.length bs)
        (.ok (bs, es) : C _))
      (.ok (mulM M r.1 sizes.length, r.2) : C _)) = _
    rw [mapM_ok _ _ _ (fun e he => expandElement_spec P B (by omega) (by omega) (hmem e he).1 (hmem e he).2.1 (hmem e he).2.2)]
    simp only [ok_bind]
    rw [Nat.mul_comm, mulM_eq (by rw [Nat.mul_comm]; omega), Nat.mul_comm]
  · rw [hents]
    exact hp1.map _
  · intro x x' y y' hx hy
    have hlen1 : es1.length = es.length := by rw [hperm.length_eq]; simp
    obtain ⟨A, e1, h1, h2, -⟩ := C01_csr_spmv M (sizes.length * bs) (sizes.length * bs)
      (es1.map (moveElement (slot off sizes.length bs))) (by simpa [hlen1] using hnnz) (by omega) (by omega) hin'
      (sizes.length * bs) (sizes.length * bs) (Nat.le_refl _) (Nat.le_refl _) x' y'
    refine ⟨A, e1, _, h1, h2, ?_, fun j hj hφ => ?_⟩
    · rw [hents, ← hentsK, ← spmvExact_colMajor]
      refine spmvExact_relabel hin1 (fun i j hi hj e => ?_) (fun i j hi hj => slot_le_iff P B hi hj) hx hy
      have a := slot_le_iff P B hi hj
      have b := slot_le_iff P B hj hi
      omega
    · rw [hents]
      exact spmvExact_relabel_else hin1 hφ

/-- **C34** under every schedule: the parallel loops of both `expand_indeces` compute what the serial ones do. -/
theorem C34_schedules (M : Nat) (off : List Nat) (blocks new : Nat)
    (ind ind' : List Nat) (es es1 : List (Element T))
    (h0 : ind.mapM (expandIndex M off blocks new) = .ok ind') (h1 : es.mapM (expandElement M off blocks new) = .ok es1) :
    EveryScheduleBuf (fun b => expandIndecesP M off blocks new b ind.length) (Buf.ofList ind) (Buf.ofList ind') ∧
    EveryScheduleBuf (fun b => expandElementsP M off blocks new b es.length) (Buf.ofList es) (Buf.ofList es1) :=
  ⟨C32_in_place_schedules _ _ _ h0, C32_in_place_schedules _ _ _ h1⟩

/-- Blocks of sizes 3, 1 and 4 become slots of size 4. -/
example : expandIndeces (2 ^ 32) [3, 1, 4] [0, 2, 3, 4, 7] = .ok (4, [0, 2, 4, 8, 11]) := by decide +kernel
example : InRange (ents [(⟨7, 3, 5, 0⟩ : Element Int), ⟨0, 4, 2, 0⟩]) [3, 1, 4].sum [3, 1, 4].sum ∧ (∀ s ∈ [3, 1, 4], s ≤ 2 ^ 2) := by decide

end Gsb
