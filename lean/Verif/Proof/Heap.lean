import Verif.Model.Heap
import Verif.Proof.BlockUtil
/-
A small separation logic for the computations of Model/Heap.lean: a computation is described by the
allocations it needs and those it leaves, everything else being untouched.
-/
namespace Gsb
variable {T : Type}

/-- Started with the allocations `l` (and any others), `m` does not fail and leaves allocations `l'` (and the
others) with `Q a l'`. -/
def Triple {α : Type} (l : List (Nat × Kind)) (m : HeapM α) (Q : α → List (Nat × Kind) → Prop) : Prop :=
  ∀ (h : Heap) (F : Multiset (Nat × Kind)), h.Ok → h.live = (l : Multiset (Nat × Kind)) + F →
    ∃ (a : α) (h' : Heap) (l' : List (Nat × Kind)), m h = .ok (a, h') ∧ h'.Ok ∧
      h'.live = (l' : Multiset (Nat × Kind)) + F ∧ Q a l'

/-- Started with the allocations `l` (and any others), `m` fails with `e`. -/
def FailsAt {α : Type} (l : List (Nat × Kind)) (m : HeapM α) (e : HeapErr) : Prop :=
  ∀ (h : Heap) (F : Multiset (Nat × Kind)), h.Ok → h.live = (l : Multiset (Nat × Kind)) + F → m h = .error e

theorem hbind_ok {α β : Type} {m : HeapM α} {f : α → HeapM β} {h h' : Heap} {a : α} (e : m h = .ok (a, h')) :
    (m >>= f) h = f a h' := by
  show Except.bind (m h) _ = _
  rw [e]; rfl

theorem hbind_error {α β : Type} {m : HeapM α} {f : α → HeapM β} {h : Heap} {x : HeapErr} (e : m h = .error x) :
    (m >>= f) h = .error x := by
  show Except.bind (m h) _ = _
  rw [e]; rfl

theorem Triple.pure {α : Type} {l : List (Nat × Kind)} {a : α} {Q : α → List (Nat × Kind) → Prop} (hq : Q a l) :
    Triple l (Pure.pure a) Q := fun h _ ok hl => ⟨a, h, l, rfl, ok, hl, hq⟩

theorem Triple.bind {α β : Type} {l : List (Nat × Kind)} {m : HeapM α} {f : α → HeapM β}
    {P : α → List (Nat × Kind) → Prop} {Q : β → List (Nat × Kind) → Prop}
    (hm : Triple l m P) (hf : ∀ a l', P a l' → Triple l' (f a) Q) : Triple l (m >>= f) Q := by
  intro h F ok hl
  obtain ⟨a, h', l', e, ok', hl', hp⟩ := hm h F ok hl
  rw [hbind_ok e]
  exact hf a l' hp h' F ok' hl'

theorem FailsAt.bind {α β : Type} {l : List (Nat × Kind)} {m : HeapM α} {f : α → HeapM β} {x : HeapErr}
    {P : α → List (Nat × Kind) → Prop}
    (hm : Triple l m P) (hf : ∀ a l', P a l' → FailsAt l' (f a) x) : FailsAt l (m >>= f) x := by
  intro h F ok hl
  obtain ⟨a, h', l', e, ok', hl', hp⟩ := hm h F ok hl
  rw [hbind_ok e]
  exact hf a l' hp h' F ok' hl'

theorem FailsAt.bind_left {α β : Type} {l : List (Nat × Kind)} {m : HeapM α} {f : α → HeapM β} {x : HeapErr}
    (hm : FailsAt l m x) : FailsAt l (m >>= f) x := fun h F ok hl => hbind_error (hm h F ok hl)

theorem Triple.mono {α : Type} {l : List (Nat × Kind)} {m : HeapM α} {P Q : α → List (Nat × Kind) → Prop}
    (hm : Triple l m P) (hpq : ∀ a l', P a l' → Q a l') : Triple l m Q := by
  intro h F ok hl
  obtain ⟨a, h', l', e, ok', hl', hp⟩ := hm h F ok hl
  exact ⟨a, h', l', e, ok', hl', hpq a l' hp⟩

theorem Triple.perm {α : Type} {l g : List (Nat × Kind)} {m : HeapM α} {Q : α → List (Nat × Kind) → Prop}
    (p : l.Perm g) (hm : Triple g m Q) : Triple l m Q := by
  intro h F ok hl
  exact hm h F ok (by rw [hl, Multiset.coe_eq_coe.2 p])

/-- Other allocations stay. -/
theorem Triple.frame {α : Type} {l : List (Nat × Kind)} (g : List (Nat × Kind)) {m : HeapM α}
    {Q : α → List (Nat × Kind) → Prop} (hm : Triple l m Q) :
    Triple (l ++ g) m (fun a l' => ∃ l'', Q a l'' ∧ l' = l'' ++ g) := by
  intro h F ok hl
  obtain ⟨a, h', l', e, ok', hl', hp⟩ := hm h ((g : Multiset (Nat × Kind)) + F) ok
    (by rw [hl, ← Multiset.coe_add, Multiset.add_assoc])
  exact ⟨a, h', l' ++ g, e, ok', by rw [hl', ← Multiset.coe_add, Multiset.add_assoc], l', hp, rfl⟩

theorem acquire_triple (k : Kind) (l : List (Nat × Kind)) :
    Triple l (acquire k) (fun p l' => l' = (p, k) :: l) := by
  intro h F ok hl
  refine ⟨h.next, ⟨h.next + 1, (h.next, k) ::ₘ h.live⟩, (h.next, k) :: l, rfl, ⟨?_, ?_⟩, ?_, rfl⟩
  · intro a ha
    rcases Multiset.mem_cons.1 ha with rfl | ha
    · exact Nat.lt_succ_self _
    · exact Nat.lt_succ_of_lt (ok.below a ha)
  · show (Multiset.map Prod.fst ((h.next, k) ::ₘ h.live)).Nodup
    rw [Multiset.map_cons, Multiset.nodup_cons]
    refine ⟨fun hm => ?_, ok.once⟩
    obtain ⟨a, ha, e⟩ := Multiset.mem_map.1 hm
    have := ok.below a ha
    have e' : a.1 = h.next := e
    omega
  · show (h.next, k) ::ₘ h.live = _
    rw [hl, ← Multiset.cons_coe, Multiset.cons_add]

theorem Heap.Ok.sub {h : Heap} (ok : h.Ok) {s : Multiset (Nat × Kind)} (hs : s ≤ h.live) : Heap.Ok ⟨h.next, s⟩ :=
  ⟨fun a ha => ok.below a (Multiset.mem_of_le hs ha),
    Multiset.nodup_of_le (Multiset.map_le_map hs) ok.once⟩

theorem Heap.Ok.nodup {h : Heap} (ok : h.Ok) : h.live.Nodup := Multiset.Nodup.of_map _ ok.once

theorem Heap.Ok.kind {h : Heap} (ok : h.Ok) {p : Nat} {k k' : Kind} (h1 : (p, k) ∈ h.live) (h2 : (p, k') ∈ h.live) :
    k = k' := by
  have := Multiset.inj_on_of_nodup_map ok.once _ h1 _ h2 rfl
  exact congrArg Prod.snd this

theorem mem_live {h : Heap} {l : List (Nat × Kind)} {F : Multiset (Nat × Kind)} {p : Nat} {k : Kind}
    (hl : h.live = (l : Multiset (Nat × Kind)) + F) {i : Nat} (hi : l[i]? = some (p, k)) : (p, k) ∈ h.live := by
  rw [hl]
  exact Multiset.mem_add.2 (.inl (Multiset.mem_coe.2 (List.mem_of_getElem? hi)))

theorem eraseIdx_coe {l : List (Nat × Kind)} {i : Nat} {a : Nat × Kind} (hi : l[i]? = some a) :
    (l : Multiset (Nat × Kind)) = a ::ₘ ((l.eraseIdx i : List (Nat × Kind)) : Multiset (Nat × Kind)) := by
  rw [Multiset.cons_coe, Multiset.coe_eq_coe]
  obtain ⟨hlt, rfl⟩ := List.getElem?_eq_some_iff.1 hi
  exact (List.getElem_cons_eraseIdx_perm hlt).symm

/-- Releasing in the right way. -/
theorem dispose_triple (strict : Bool) {k : Kind} {p : Nat} {l : List (Nat × Kind)} (i : Nat)
    (hi : l[i]? = some (p, k)) : Triple l (dispose strict k p) (fun _ l' => l' = l.eraseIdx i) := by
  intro h F ok hl
  have hm := mem_live hl hi
  refine ⟨(), ⟨h.next, h.live.erase (p, k)⟩, l.eraseIdx i, ?_, ok.sub (Multiset.erase_le _ _), ?_, rfl⟩
  · unfold dispose; rw [if_pos hm]
  · show h.live.erase (p, k) = _
    rw [hl, eraseIdx_coe hi, Multiset.cons_add, Multiset.erase_cons_head]

/-- Releasing with the wrong function, when the allocators do not mind. -/
theorem dispose_lax {k k' : Kind} {p : Nat} {l : List (Nat × Kind)} (i : Nat)
    (hi : l[i]? = some (p, k')) : Triple l (dispose false k p) (fun _ l' => l' = l.eraseIdx i) := by
  by_cases hk : k = k'
  · subst hk; exact dispose_triple false i hi
  · intro h F ok hl
    have hm := mem_live hl hi
    have hn : (p, k) ∉ h.live := fun hx => hk (ok.kind hx hm)
    refine ⟨(), ⟨h.next, h.live.filter (fun a => a.1 ≠ p)⟩, l.eraseIdx i, ?_, ok.sub (Multiset.filter_le _ _), ?_, rfl⟩
    · unfold dispose
      rw [if_neg hn, if_pos (Multiset.mem_map.2 ⟨_, hm, rfl⟩)]
      rfl
    · show h.live.filter (fun a => a.1 ≠ p) = _
      have hone := ok.once
      rw [hl, eraseIdx_coe hi, Multiset.cons_add, Multiset.map_cons, Multiset.nodup_cons] at hone
      rw [hl, eraseIdx_coe hi, Multiset.cons_add, Multiset.filter_cons_of_neg _ (by simp)]
      refine Multiset.filter_eq_self.2 (fun a ha e => ?_)
      exact hone.1 (Multiset.mem_map.2 ⟨a, ha, e⟩)

/-- Releasing with the wrong function, when they do. -/
theorem dispose_mismatch {k k' : Kind} {p : Nat} {l : List (Nat × Kind)} (i : Nat)
    (hi : l[i]? = some (p, k')) (hk : k ≠ k') : FailsAt l (dispose true k p) .mismatch := by
  intro h F ok hl
  have hm := mem_live hl hi
  have hn : (p, k) ∉ h.live := fun hx => hk (ok.kind hx hm)
  unfold dispose
  rw [if_neg hn, if_pos (Multiset.mem_map.2 ⟨_, hm, rfl⟩), if_pos rfl]

/-! Rules for a step followed by the rest -/

theorem Triple.acq {β : Type} {k : Kind} {l : List (Nat × Kind)} {f : Nat → HeapM β} {Q : β → List (Nat × Kind) → Prop}
    (hf : ∀ p, Triple ((p, k) :: l) (f p) Q) : Triple l (acquire k >>= f) Q :=
  (acquire_triple k l).bind (fun p _ e => e ▸ hf p)

theorem Triple.rel {β : Type} {strict : Bool} {k : Kind} {p : Nat} {l : List (Nat × Kind)} {f : Unit → HeapM β}
    {Q : β → List (Nat × Kind) → Prop} (i : Nat) (hi : l[i]? = some (p, k))
    (hf : Triple (l.eraseIdx i) (f ()) Q) : Triple l (dispose strict k p >>= f) Q :=
  (dispose_triple strict i hi).bind (fun _ _ e => e ▸ hf)

theorem Triple.relLast {strict : Bool} {k : Kind} {p : Nat} {l : List (Nat × Kind)}
    {Q : Unit → List (Nat × Kind) → Prop} (i : Nat) (hi : l[i]? = some (p, k))
    (hq : Q () (l.eraseIdx i)) : Triple l (dispose strict k p) Q :=
  (dispose_triple strict i hi).mono (fun _ _ e => e ▸ hq)

theorem FailsAt.acq {β : Type} {k : Kind} {l : List (Nat × Kind)} {f : Nat → HeapM β} {x : HeapErr}
    (hf : ∀ p, FailsAt ((p, k) :: l) (f p) x) : FailsAt l (acquire k >>= f) x :=
  FailsAt.bind (acquire_triple k l) (fun p _ e => e ▸ hf p)

theorem FailsAt.rel {β : Type} {strict : Bool} {k : Kind} {p : Nat} {l : List (Nat × Kind)} {f : Unit → HeapM β}
    {x : HeapErr} (i : Nat) (hi : l[i]? = some (p, k))
    (hf : FailsAt (l.eraseIdx i) (f ()) x) : FailsAt l (dispose strict k p >>= f) x :=
  FailsAt.bind (dispose_triple strict i hi) (fun _ _ e => e ▸ hf)

theorem Triple.balanced {α : Type} {m : HeapM α} (h : Triple [] m (fun _ l => l = [])) : Balanced m := by
  intro h0 ok
  obtain ⟨a, h', l', e, _, hl, rfl⟩ := h h0 h0.live ok (by simp)
  exact ⟨a, h', e, by rw [hl]; simp⟩

theorem FailsAt.failsWith {α : Type} {m : HeapM α} {x : HeapErr} (h : FailsAt [] m x) : FailsWith x m :=
  fun h0 ok => h h0 h0.live ok (by simp)

theorem Triple.leaks {α : Type} {m : HeapM α} {n : Nat}
    (h : Triple [] m (fun _ l => ∃ ps : List Nat, ps.length = n ∧ l.Perm (ps.map (fun p => (p, Kind.newArray))))) :
    LeaksArrays n m := by
  intro h0 ok
  obtain ⟨a, h', l', e, ok', hl, ps, hn, hp⟩ := h h0 h0.live ok (by simp)
  have hl' : h'.live = (ps.map (fun p => (p, Kind.newArray)) : Multiset (Nat × Kind)) + h0.live := by
    rw [hl, Multiset.coe_eq_coe.2 hp]
  have hone := ok'.once
  rw [hl', Multiset.map_add, Multiset.map_coe, List.map_map] at hone
  have hid : List.map (Prod.fst ∘ fun p => (p, Kind.newArray)) ps = ps := by
    rw [show (Prod.fst ∘ fun p : Nat => (p, Kind.newArray)) = id from rfl, List.map_id]
  rw [hid, Multiset.nodup_add] at hone
  refine ⟨a, h', ps, e, hn, Multiset.coe_nodup.1 hone.1, fun p hp hq => ?_, hl'⟩
  exact Multiset.disjoint_left.1 hone.2.2 (Multiset.mem_coe.2 hp) hq

end Gsb
namespace Gsb
variable {T : Type}

/-! ### Loops -/

/-- How many arrays `Mem.perBlock` allocates. -/
def newBlocks : Nat → List (Element T) → Nat
  | _, [] => 0
  | prev, e :: es => if e.block ≠ prev then newBlocks e.block es + 1 else newBlocks prev es

theorem perBlock_triple (k : Kind) (es : List (Element T)) : ∀ prev,
    Triple [] (Mem.perBlock k prev es) (fun ps l => l = ps.map (fun p => (p, k)) ∧ ps.length = newBlocks prev es) := by
  induction es with
  | nil => intro prev; exact Triple.pure ⟨rfl, rfl⟩
  | cons e es ih =>
    intro prev
    unfold Mem.perBlock newBlocks
    split
    · refine Triple.acq (fun p => ?_)
      refine ((ih e.block).frame [(p, k)]).bind (fun ps l' h => ?_)
      obtain ⟨l'', ⟨rfl, hn⟩, rfl⟩ := h
      refine Triple.perm (g := (p, k) :: ps.map (fun p => (p, k))) List.perm_append_comm (Triple.pure ⟨rfl, ?_⟩)
      rw [List.length_cons, hn]
    · exact ih prev

theorem releaseAll_triple (strict : Bool) (k : Kind) : ∀ (ps : List Nat) (n : Nat), n ≤ ps.length →
    Triple (ps.map (fun p => (p, k))) (Mem.releaseAll strict k n ps)
      (fun _ l => l = (ps.drop n).map (fun p => (p, k)))
  | ps, 0, _ => Triple.pure rfl
  | [], n + 1, h => absurd h (by simp)
  | p :: ps, n + 1, h => by
    unfold Mem.releaseAll
    refine Triple.rel 0 rfl ?_
    exact releaseAll_triple strict k ps n (by simpa using h)

theorem releaseAll_lax (k k' : Kind) : ∀ (ps : List Nat) (n : Nat), n ≤ ps.length →
    Triple (ps.map (fun p => (p, k'))) (Mem.releaseAll false k n ps)
      (fun _ l => l = (ps.drop n).map (fun p => (p, k')))
  | ps, 0, _ => Triple.pure rfl
  | [], n + 1, h => absurd h (by simp)
  | p :: ps, n + 1, h => by
    unfold Mem.releaseAll
    refine (dispose_lax (k := k) (k' := k') (l := (p, k') :: ps.map (fun p => (p, k'))) 0 rfl).bind (fun _ l e => ?_)
    subst e
    exact releaseAll_lax k k' ps n (by simpa using h)

theorem arrays_triple (n : Nat) :
    Triple [] (Mem.arrays n) (fun ps l => l = ps.map (fun p => (p, Kind.newArray)) ∧ ps.length = n) := by
  induction n with
  | zero => exact Triple.pure ⟨rfl, rfl⟩
  | succ n ih =>
    unfold Mem.arrays
    refine Triple.acq (fun p => ?_)
    refine (ih.frame [(p, Kind.newArray)]).bind (fun ps l' h => ?_)
    obtain ⟨l'', ⟨rfl, hn⟩, rfl⟩ := h
    refine Triple.perm (g := (p, Kind.newArray) :: ps.map (fun p => (p, Kind.newArray))) List.perm_append_comm
      (Triple.pure ⟨rfl, by rw [List.length_cons, hn]⟩)

theorem releaseOffsets_triple (strict : Bool) {offR offC : Nat} :
    Triple [(offC, .malloc), (offR, .malloc)] (Mem.releaseOffsets strict offR offC) (fun _ l => l = []) := by
  intro h F ok hl
  have hne : offC ≠ offR := by
    rintro rfl
    have := ok.once
    rw [hl, Multiset.map_add, Multiset.nodup_add] at this
    have h1 := this.1
    simp at h1
  unfold Mem.releaseOffsets
  rw [if_neg hne]
  exact (Triple.rel 0 rfl (Triple.relLast 0 rfl rfl)) h F ok hl

theorem releaseOffsets_same (strict : Bool) {off : Nat} :
    Triple [(off, .malloc)] (Mem.releaseOffsets strict off off) (fun _ l => l = []) := by
  unfold Mem.releaseOffsets
  rw [if_pos rfl]
  exact Triple.relLast 0 rfl rfl

/-- With distinct offsets made by `new []`, `free` is the wrong function. -/
theorem releaseOffsets_fails {offR offC : Nat} {l : List (Nat × Kind)} (i : Nat)
    (hi : l[i]? = some (offC, .newArray)) : FailsAt l (Mem.releaseOffsets true offR offC) .mismatch := by
  unfold Mem.releaseOffsets
  split
  · next h => exact dispose_mismatch i (h ▸ hi) (by decide)
  · exact FailsAt.bind_left (dispose_mismatch i hi (by decide))

/-! ### The number of blocks -/

theorem newBlocks_runs (es : List (Element T)) : ∀ (pre : List (Element T)) (a : Element T),
    pre.getLast? = some a →
    (runs Element.block (pre ++ es)).length = (runs Element.block pre).length + newBlocks a.block es := by
  induction es with
  | nil => intro pre a _; simp [newBlocks]
  | cons e es ih =>
    intro pre a ha
    rw [show pre ++ e :: es = (pre ++ [e]) ++ es by simp, ih (pre ++ [e]) e (by simp)]
    conv_rhs => unfold newBlocks
    by_cases h : e.block = a.block
    · obtain ⟨G0, g, e1, e2, -, -⟩ := runs_same Element.block pre e a ha h.symm
      rw [if_neg (by simpa using h), e1, e2, h]
      simp
    · rw [if_pos h, runs_new Element.block pre e (by
        intro b hb; rw [ha] at hb; cases hb; exact fun hx => h hx.symm)]
      simp
      omega

/-- When no block has the sentinel as its number, an array is allocated for each block. -/
theorem newBlocks_eq {prev : Nat} {es : List (Element T)} (h : ∀ e ∈ es, e.block ≠ prev) :
    newBlocks prev es = (runs Element.block es).length := by
  cases es with
  | nil => rfl
  | cons e es =>
    unfold newBlocks
    rw [if_pos (h e (by simp))]
    have := newBlocks_runs es [e] e rfl
    rw [List.singleton_append] at this
    rw [this]
    simp [runs, addRun]
    omega

/-! ### Blocked formats -/

theorem csbr2_triple (strict : Bool) {M n offR offC : Nat} {es : List (Element T)} {offs : List (Nat × Kind)}
    (hoff : Triple offs (Mem.releaseOffsets strict offR offC) (fun _ l => l = []))
    (hn : newBlocks (M - 1) es = n) : Triple offs (Mem.csbr2 strict M es n offR offC) (fun _ l => l = []) := by
  unfold Mem.csbr2
  refine Triple.acq (fun brp => Triple.acq (fun rps => Triple.acq (fun v => Triple.acq (fun c => ?_))))
  refine ((perBlock_triple .malloc es (M - 1)).frame _).bind (fun rp l h => ?_)
  obtain ⟨l'', ⟨rfl, hlen⟩, rfl⟩ := h
  refine ((releaseAll_triple strict .malloc rp n (by omega)).frame _).bind (fun _ l h => ?_)
  obtain ⟨l'', rfl, rfl⟩ := h
  rw [List.drop_of_length_le (by omega)]
  refine Triple.perm (g := offs ++ [(c, .malloc), (v, .malloc), (rps, .malloc), (brp, .malloc)])
    (by simpa using (List.perm_append_comm (l₁ := [(c, Kind.malloc), (v, .malloc), (rps, .malloc), (brp, .malloc)]) (l₂ := offs))) ?_
  refine (hoff.frame _).bind (fun _ l h => ?_)
  obtain ⟨l'', rfl, rfl⟩ := h
  exact Triple.rel 3 rfl (Triple.rel 2 rfl (Triple.rel 0 rfl (Triple.relLast 0 rfl rfl)))

/-- Csbr2 with offsets made by `new []`. -/
theorem csbr2_fails {M n offR offC : Nat} {es : List (Element T)} (hn : newBlocks (M - 1) es = n) :
    FailsAt [(offC, .newArray), (offR, .newArray)] (Mem.csbr2 true M es n offR offC) .mismatch := by
  unfold Mem.csbr2
  refine FailsAt.acq (fun brp => FailsAt.acq (fun rps => FailsAt.acq (fun v => FailsAt.acq (fun c => ?_))))
  refine FailsAt.bind ((perBlock_triple .malloc es (M - 1)).frame _) (fun rp l h => ?_)
  obtain ⟨l'', ⟨rfl, hlen⟩, rfl⟩ := h
  refine FailsAt.bind ((releaseAll_triple true .malloc rp n (by omega)).frame _) (fun _ l h => ?_)
  obtain ⟨l'', rfl, rfl⟩ := h
  rw [List.drop_of_length_le (by omega)]
  exact FailsAt.bind_left (releaseOffsets_fails 4 rfl)

/-- Csbr: the first `delete []` of memory from `calloc`. -/
theorem csbr_fails {M n offR offC : Nat} {es : List (Element T)} {offs : List (Nat × Kind)}
    (hn : newBlocks (M - 1) es = n) (hpos : 0 < n) :
    FailsAt offs (Mem.csbr true M es n offR offC) .mismatch := by
  unfold Mem.csbr
  refine FailsAt.acq (fun _ => FailsAt.acq (fun _ => FailsAt.acq (fun _ => FailsAt.acq (fun _ => FailsAt.acq (fun _ => ?_)))))
  refine FailsAt.bind ((perBlock_triple .malloc es (M - 1)).frame _) (fun rp l h => ?_)
  obtain ⟨l'', ⟨rfl, hlen⟩, rfl⟩ := h
  refine FailsAt.acq (fun q => FailsAt.bind_left ?_)
  obtain ⟨n, rfl⟩ : ∃ m, n = m + 1 := ⟨n - 1, by omega⟩
  cases rp with
  | nil => simp at hlen; omega
  | cons p rp =>
    unfold Mem.releaseAll
    exact FailsAt.bind_left (dispose_mismatch 1 rfl (by decide))

/-- Csbr, when the allocators do not mind: everything but the partition is released. -/
theorem csbr_lax {M n offR offC : Nat} {es : List (Element T)} {offs : List (Nat × Kind)}
    (hoff : Triple offs (Mem.releaseOffsets false offR offC) (fun _ l => l = []))
    (hn : newBlocks (M - 1) es = n) :
    Triple offs (Mem.csbr false M es n offR offC) (fun _ l => ∃ p, l = [(p, Kind.newArray)]) := by
  unfold Mem.csbr
  refine Triple.acq (fun b => Triple.acq (fun bci => Triple.acq (fun brp => Triple.acq (fun v => Triple.acq (fun c => ?_)))))
  refine ((perBlock_triple .malloc es (M - 1)).frame _).bind (fun rp l h => ?_)
  obtain ⟨l'', ⟨rfl, hlen⟩, rfl⟩ := h
  refine Triple.acq (fun q => ?_)
  refine Triple.perm (g := rp.map (fun p => (p, Kind.malloc)) ++ ((q, Kind.newArray) :: (c, .malloc) :: (v, .malloc) ::
    (brp, .malloc) :: (bci, .malloc) :: (b, .malloc) :: offs)) List.perm_middle.symm ?_
  refine ((releaseAll_lax .newArray .malloc rp n (by omega)).frame _).bind (fun _ l h => ?_)
  obtain ⟨l'', rfl, rfl⟩ := h
  rw [List.drop_of_length_le (by omega)]
  refine Triple.perm (g := offs ++ [(q, Kind.newArray), (c, .malloc), (v, .malloc), (brp, .malloc), (bci, .malloc), (b, .malloc)])
    (by simpa using (List.perm_append_comm
      (l₁ := [(q, Kind.newArray), (c, .malloc), (v, .malloc), (brp, .malloc), (bci, .malloc), (b, .malloc)]) (l₂ := offs))) ?_
  refine (hoff.frame _).bind (fun _ l h => ?_)
  obtain ⟨l'', rfl, rfl⟩ := h
  exact Triple.rel 4 rfl (Triple.rel 4 rfl (Triple.rel 3 rfl (Triple.rel 1 rfl (Triple.relLast 1 rfl ⟨q, rfl⟩))))

/-- The allocations of the blocks of a Cgbr. -/
def blockAllocs (bs : List (BlockChoice × List Nat)) : List (Nat × Kind) :=
  bs.flatMap (fun b => b.2.map (fun p => (p, Kind.newArray)))

theorem blocks_triple (types : List BlockChoice) :
    Triple [] (Mem.blocks types) (fun bs l => l = blockAllocs bs ∧ bs.length = types.length ∧
      ∀ b ∈ bs, b.2.length = Mem.blockArrays b.1) := by
  induction types with
  | nil => exact Triple.pure ⟨rfl, rfl, by simp⟩
  | cons t ts ih =>
    unfold Mem.blocks
    refine (arrays_triple (Mem.blockArrays t)).bind (fun p l h => ?_)
    obtain ⟨rfl, hp⟩ := h
    refine (ih.frame _).bind (fun bs l h => ?_)
    obtain ⟨l'', ⟨rfl, hlen, hall⟩, rfl⟩ := h
    refine Triple.perm List.perm_append_comm (Triple.pure ⟨rfl, by simp [hlen], ?_⟩)
    intro b hb
    rcases List.mem_cons.1 hb with rfl | hb
    · exact hp
    · exact hall b hb

theorem releaseBlocks_triple (strict : Bool) : ∀ (bs : List (BlockChoice × List Nat)) (n : Nat), n = bs.length →
    (∀ b ∈ bs, b.2.length = Mem.blockArrays b.1) →
    Triple (blockAllocs bs) (Mem.releaseBlocks strict n bs) (fun _ l => l = [])
  | [], 0, _, _ => Triple.pure rfl
  | [], n + 1, h, _ => by simp at h
  | b :: bs, 0, h, _ => by simp at h
  | b :: bs, n + 1, h, hall => by
    unfold Mem.releaseBlocks
    have hb := hall b (by simp)
    have heq : Mem.blockReleased b.1 = Mem.blockArrays b.1 := by cases b.1 <;> rfl
    refine ((releaseAll_triple strict .newArray b.2 (Mem.blockReleased b.1) (by omega)).frame (blockAllocs bs)).bind
      (fun _ l hl => ?_)
    obtain ⟨l'', rfl, rfl⟩ := hl
    rw [List.drop_of_length_le (by omega)]
    exact releaseBlocks_triple strict bs n (by simpa using h) (fun b' hb' => hall b' (by simp [hb']))

theorem cgbr_triple (strict : Bool) (types : List BlockChoice) (balanced : Bool) (l : List (Nat × Kind)) :
    Triple l (Mem.cgbr strict types types.length balanced) (fun _ l' => l' = l) := by
  unfold Mem.cgbr
  refine Triple.acq (fun b => Triple.acq (fun bci => Triple.acq (fun brp => ?_)))
  refine ((blocks_triple types).frame _).bind (fun bs l' h => ?_)
  obtain ⟨l'', ⟨rfl, hlen, hall⟩, rfl⟩ := h
  have hrest : Triple (blockAllocs bs ++ (brp, .newArray) :: (bci, .newArray) :: (b, .newArray) :: l) (do
      Mem.releaseBlocks strict types.length bs
      dispose strict .newArray b
      dispose strict .newArray brp
      dispose strict .newArray bci) (fun _ l' => l' = l) := by
    refine ((releaseBlocks_triple strict bs _ hlen.symm hall).frame _).bind (fun _ l' h => ?_)
    obtain ⟨l'', rfl, rfl⟩ := h
    exact Triple.rel 2 rfl (Triple.rel 0 rfl (Triple.relLast 0 rfl rfl))
  split
  · exact hrest
  · exact Triple.acq (fun q => Triple.rel 0 rfl hrest)

/-- The allocations of the block objects of a Cgbr2. -/
def objectAllocs (bs : List (FactoryChoice × Nat × List Nat)) : List (Nat × Kind) :=
  bs.flatMap (fun b => b.2.2.map (fun p => (p, Kind.newArray)) ++ [(b.2.1, Kind.newObject)])

theorem objects_triple (types : List FactoryChoice) :
    Triple [] (Mem.objects types) (fun bs l => l = objectAllocs bs ∧ bs.map Prod.fst = types ∧
      ∀ b ∈ bs, b.2.2.length = Mem.objectArrays b.1) := by
  induction types with
  | nil => exact Triple.pure ⟨rfl, rfl, by simp⟩
  | cons t ts ih =>
    unfold Mem.objects
    refine Triple.acq (fun o => ?_)
    refine ((arrays_triple (Mem.objectArrays t)).frame [(o, .newObject)]).bind (fun p l h => ?_)
    obtain ⟨l'', ⟨rfl, hp⟩, rfl⟩ := h
    refine (ih.frame _).bind (fun bs l h => ?_)
    obtain ⟨l'', ⟨rfl, hlen, hall⟩, rfl⟩ := h
    refine Triple.perm List.perm_append_comm (Triple.pure ⟨rfl, by simp [hlen], ?_⟩)
    intro b hb
    rcases List.mem_cons.1 hb with rfl | hb
    · exact hp
    · exact hall b hb

theorem deleteObjects_triple (strict : Bool) : ∀ (bs : List (FactoryChoice × Nat × List Nat)) (n : Nat), n = bs.length →
    (∀ b ∈ bs, b.2.2.length = Mem.objectArrays b.1) →
    Triple (objectAllocs bs) (Mem.deleteObjects strict n bs)
      (fun _ l => ∃ ps : List Nat, ps.length = (bs.map Prod.fst).count .dense ∧ l = ps.map (fun p => (p, Kind.newArray)))
  | [], 0, _, _ => Triple.pure ⟨[], rfl, rfl⟩
  | [], n + 1, h, _ => by simp at h
  | b :: bs, 0, h, _ => by simp at h
  | b :: bs, n + 1, h, hall => by
    unfold Mem.deleteObjects
    have hb := hall b (by simp)
    have hle : Mem.destroyed b.1 ≤ b.2.2.length := by rw [hb]; cases b.1 <;> decide
    refine ((releaseAll_triple strict .newArray b.2.2 (Mem.destroyed b.1) hle).frame
      ([(b.2.1, Kind.newObject)] ++ objectAllocs bs)).perm (List.Perm.of_eq (by simp [objectAllocs])) |>.bind (fun _ l hl => ?_)
    obtain ⟨l'', rfl, rfl⟩ := hl
    refine Triple.perm (g := (b.2.1, Kind.newObject) :: (objectAllocs bs ++ (b.2.2.drop (Mem.destroyed b.1)).map (fun p => (p, Kind.newArray)))) ?_ ?_
    · simpa using (List.perm_append_comm (l₁ := (b.2.2.drop (Mem.destroyed b.1)).map (fun p => (p, Kind.newArray)))
        (l₂ := (b.2.1, Kind.newObject) :: objectAllocs bs))
    refine Triple.rel 0 rfl ?_
    refine ((deleteObjects_triple strict bs n (by simpa using h) (fun b' hb' => hall b' (by simp [hb']))).frame _).mono
      (fun _ l hl => ?_)
    obtain ⟨l'', ⟨ps, hps, rfl⟩, rfl⟩ := hl
    refine ⟨ps ++ b.2.2.drop (Mem.destroyed b.1), ?_, by simp⟩
    rw [List.length_append, hps, List.length_drop, hb, List.map_cons, List.count_cons]
    cases b.1 <;> simp [Mem.objectArrays, Mem.destroyed]

theorem cgbr2_triple (strict : Bool) (types : List FactoryChoice) :
    Triple [] (Mem.cgbr2 strict types types.length)
      (fun _ l => ∃ ps : List Nat, ps.length = types.count .dense ∧ l.Perm (ps.map (fun p => (p, Kind.newArray)))) := by
  unfold Mem.cgbr2
  refine Triple.acq (fun b => Triple.acq (fun bci => Triple.acq (fun brp => ?_)))
  refine ((objects_triple types).frame _).bind (fun bs l' h => ?_)
  obtain ⟨l'', ⟨rfl, hmap, hall⟩, rfl⟩ := h
  refine Triple.acq (fun q => Triple.rel 0 rfl ?_)
  refine ((deleteObjects_triple strict bs types.length (by rw [← hmap, List.length_map]) hall).frame _).bind (fun _ l' h => ?_)
  obtain ⟨l'', ⟨ps, hps, rfl⟩, rfl⟩ := h
  refine Triple.perm List.perm_append_comm ?_
  refine Triple.rel 2 rfl (Triple.rel 0 rfl (Triple.relLast 0 rfl ⟨ps, by rw [hps, hmap], ?_⟩))
  exact List.Perm.refl _

end Gsb
namespace Gsb

/-- The same as `FailsAt`, when nothing lives at `q`. -/
def FailsGone {α : Type} (q : Nat) (l : List (Nat × Kind)) (m : HeapM α) (e : HeapErr) : Prop :=
  ∀ (h : Heap) (F : Multiset (Nat × Kind)), h.Ok → h.live = (l : Multiset (Nat × Kind)) + F →
    q ∉ h.live.map Prod.fst → m h = .error e

theorem FailsGone.start {β : Type} {strict : Bool} {k : Kind} {p : Nat} {l : List (Nat × Kind)} {f : Unit → HeapM β}
    {x : HeapErr} (i : Nat) (hi : l[i]? = some (p, k))
    (hf : FailsGone p (l.eraseIdx i) (f ()) x) : FailsAt l (dispose strict k p >>= f) x := by
  intro h F ok hl
  have hm := mem_live hl hi
  have e : dispose strict k p h = .ok ((), ⟨h.next, h.live.erase (p, k)⟩) := by unfold dispose; rw [if_pos hm]
  rw [hbind_ok e]
  refine hf _ F (ok.sub (Multiset.erase_le _ _)) ?_ ?_
  · show h.live.erase (p, k) = _
    rw [hl, eraseIdx_coe hi, Multiset.cons_add, Multiset.erase_cons_head]
  · have hone := ok.once
    rw [← Multiset.cons_erase hm, Multiset.map_cons, Multiset.nodup_cons] at hone
    exact hone.1

theorem FailsGone.rel {β : Type} {strict : Bool} {k : Kind} {p q : Nat} {l : List (Nat × Kind)} {f : Unit → HeapM β}
    {x : HeapErr} (i : Nat) (hi : l[i]? = some (p, k))
    (hf : FailsGone q (l.eraseIdx i) (f ()) x) : FailsGone q l (dispose strict k p >>= f) x := by
  intro h F ok hl hq
  have hm := mem_live hl hi
  have e : dispose strict k p h = .ok ((), ⟨h.next, h.live.erase (p, k)⟩) := by unfold dispose; rw [if_pos hm]
  rw [hbind_ok e]
  refine hf _ F (ok.sub (Multiset.erase_le _ _)) ?_ ?_
  · show h.live.erase (p, k) = _
    rw [hl, eraseIdx_coe hi, Multiset.cons_add, Multiset.erase_cons_head]
  · exact fun hx => hq (Multiset.mem_of_le (Multiset.map_le_map (Multiset.erase_le _ _)) hx)

theorem FailsGone.again {β : Type} {strict : Bool} {k : Kind} {q : Nat} {l : List (Nat × Kind)} {f : Unit → HeapM β} :
    FailsGone q l (dispose strict k q >>= f) .notLive := by
  intro h F ok hl hq
  refine hbind_error ?_
  unfold dispose
  rw [if_neg (fun hx => hq (Multiset.mem_map.2 ⟨_, hx, rfl⟩)), if_neg hq]

end Gsb
