import Verif.Model.Gsb
import Verif.Proof.Scan
namespace Gsb
variable {T : Type}

/-- Total weight of the blocks `[a, b)`. -/
def load (w : Nat → Nat) (a b : Nat) : Nat := ((List.range (b - a)).map (fun i => w (a + i))).sum

theorem load_empty (w : Nat → Nat) {a b : Nat} (h : b ≤ a) : load w a b = 0 := by
  simp [load, show b - a = 0 by omega]

theorem load_succ (w : Nat → Nat) {a b : Nat} (h : a ≤ b) : load w a (b + 1) = load w a b + w b := by
  unfold load
  rw [show b + 1 - a = (b - a) + 1 by omega, List.range_succ]
  simp [show a + (b - a) = b by omega]

theorem load_split (w : Nat → Nat) {a b c : Nat} (h1 : a ≤ b) (h2 : b ≤ c) :
    load w a c = load w a b + load w b c := by
  obtain ⟨n, rfl⟩ : ∃ n, c = b + n := ⟨c - b, by omega⟩
  clear h2
  induction n with
  | zero => simp [load_empty]
  | succ n ih => rw [← Nat.add_assoc, load_succ w (by omega), ih, load_succ w (by omega)]; omega

theorem load_mono (w : Nat → Nat) {a b c : Nat} (h : b ≤ c) : load w a b ≤ load w a c := by
  by_cases h1 : a ≤ b
  · rw [load_split w h1 h]; omega
  · rw [load_empty w (by omega)]; omega

/-- What the chunk boundaries of a block-row look like. -/
structure ChunksOK (w : Nat → Nat) (min start stop : Nat) (chunks : List Nat) : Prop where
  first : chunks.head? = some start
  last : chunks.getLast? = some stop
  size : 2 ≤ chunks.length
  mono : chunks.Pairwise (· ≤ ·)
  light : ∀ j a b, j + 2 < chunks.length → chunks[j]? = some a → chunks[j + 1]? = some b →
    load w a b ≤ min + w a
  light_last : ∀ a, chunks[chunks.length - 2]? = some a → load w a stop ≤ min + w a + w (stop - 1)
  count : (chunks.length - 2) * (min + 1) ≤ load w start stop

/-- The loop state: accumulated weight and the boundaries so far. -/
structure PInv (w : Nat → Nat) (min start stop b : Nat) (s : Nat × List Nat) : Prop where
  first : s.2.head? = some start
  ne : s.2 ≠ []
  mono : s.2.Pairwise (· ≤ ·)
  below : ∀ c ∈ s.2, c ≤ b
  light : ∀ j a c, s.2[j]? = some a → s.2[j + 1]? = some c → load w a c ≤ min + w a
  acc : ∀ c, s.2.getLast? = some c → load w c b ≤ s.1 + w c
  accMin : b < stop → s.1 ≤ min
  accLast : s.1 ≤ min + w (stop - 1)
  count : (s.2.length - 1) * (min + 1) + s.1 ≤ load w start b

theorem getElem?_concat_cases {α : Type} {l : List α} {a x y : α} {j : Nat}
    (h1 : (l ++ [a])[j]? = some x) (h2 : (l ++ [a])[j + 1]? = some y) :
    (l[j]? = some x ∧ l[j + 1]? = some y) ∨ (l.getLast? = some x ∧ y = a) := by
  by_cases h : j + 1 < l.length
  · left
    rw [List.getElem?_append_left (by omega)] at h1
    rw [List.getElem?_append_left h] at h2
    exact ⟨h1, h2⟩
  · right
    have hlt : j + 1 < (l ++ [a]).length := (List.getElem?_eq_some_iff.1 h2).1
    have hj : j + 1 = l.length := by simp at hlt; omega
    rw [List.getElem?_append_left (by omega)] at h1
    rw [List.getElem?_append_right (by omega), hj] at h2
    simp at h2
    refine ⟨?_, h2.symm⟩
    rw [List.getLast?_eq_getElem?, ← h1]; congr 1; omega

theorem partitionBlockrow_spec {M workers nnz : Nat} (blockNnz : Nat → C Nat) (w : Nat → Nat)
    (start stop : Nat) (hw : 0 < workers) (hle : start ≤ stop) (hM : stop < M)
    (hb : ∀ b, start ≤ b → b < stop → blockNnz b = .ok (w b))
    (hload : load w start stop < M) :
    ∃ chunks, partitionBlockrow M workers nnz blockNnz start stop = .ok chunks ∧
      ChunksOK w (nnz / (2 * workers)) start stop chunks := by
  unfold partitionBlockrow
  rw [cdiv_ok (by omega), ok_bind]
  generalize nnz / (2 * workers) = min
  have key := forLoop_inv (lo := start) (hi := stop)
    (f := fun b (s : Nat × List Nat) => do
      let n ← blockNnz b
      let nnz := addM M s.1 n
      if nnz > min ∧ b < subM M stop 1 then Except.ok (0, s.2 ++ [b]) else Except.ok (nnz, s.2))
    (s := ((0 : Nat), [start])) (fun b s => PInv w min start stop b s) hle
    ⟨rfl, by simp, by simp, by simp, by intro j a c h1 h2; simp at h2, by intro c hc; simp at hc; subst hc; simp [load_empty],
      by intro _; exact Nat.zero_le _, Nat.zero_le _, by simp⟩ (by
    intro b s h1 h2 inv
    simp only
    rw [hb b h1 h2, ok_bind]
    have hsucc := load_succ w h1
    have hm1 := load_mono w (a := start) (show b + 1 ≤ stop by omega)
    have hcnt := inv.count
    have hadd : addM M s.1 (w b) = s.1 + w b := by
      refine addM_eq ?_
      have : s.1 ≤ load w start b := Nat.le_trans (Nat.le_add_left _ _) hcnt
      omega
    rw [hadd, subM_eq hM (by omega)]
    have hlen : 0 < s.2.length := List.length_pos_iff.2 inv.ne
    split
    · next hc =>
      refine ⟨_, rfl, ?_⟩
      refine ⟨?_, by simp, ?_, ?_, ?_, ?_, ?_, Nat.zero_le _, ?_⟩
      · rw [List.head?_append, inv.first]; rfl
      · rw [List.pairwise_append]
        refine ⟨inv.mono, by simp, ?_⟩
        intro a ha c hc'
        simp at hc'; subst hc'; exact inv.below a ha
      · intro c hc'
        rcases List.mem_append.1 hc' with h | h
        · have := inv.below c h; omega
        · simp at h; omega
      · intro j a c h3 h4
        rcases getElem?_concat_cases h3 h4 with ⟨h5, h6⟩ | ⟨h5, h6⟩
        · exact inv.light j a c h5 h6
        · subst h6
          have h7 := inv.acc a h5
          have h8 := inv.accMin h2
          omega
      · intro c hc'
        simp at hc'; subst hc'
        rw [load_succ w (Nat.le_refl _), load_empty w (Nat.le_refl _)]
      · intro _; exact Nat.zero_le _
      · simp only [List.length_append, List.length_singleton]
        have : (s.2.length + 1 - 1) * (min + 1) = (s.2.length - 1) * (min + 1) + (min + 1) := by
          rw [show s.2.length + 1 - 1 = (s.2.length - 1) + 1 by omega, Nat.add_mul]; omega
        omega
    · next hc =>
      refine ⟨_, rfl, ?_⟩
      have hor : s.1 + w b ≤ min ∨ ¬ b < stop - 1 := by
        by_cases h : s.1 + w b ≤ min
        · exact .inl h
        · exact .inr (fun h' => hc ⟨by omega, h'⟩)
      refine ⟨inv.first, inv.ne, inv.mono, ?_, inv.light, ?_, ?_, ?_, ?_⟩
      · intro c hc'; have := inv.below c hc'; omega
      · intro c hc'
        have h3 := inv.below c (List.mem_of_getLast? hc')
        rw [load_succ w h3]
        have := inv.acc c hc'
        simp only; omega
      · intro hlt; simp only; rcases hor with h | h <;> omega
      · simp only
        have := inv.accMin h2
        rcases hor with h | h
        · omega
        · have : b = stop - 1 := by omega
          subst this; omega
      · simp only; omega)
  obtain ⟨s, hs, inv⟩ := key
  refine ⟨s.2 ++ [stop], ?_, ?_⟩
  · have := hs
    simp only at this ⊢
    rw [this, ok_bind]
  · have hlen : 0 < s.2.length := List.length_pos_iff.2 inv.ne
    refine ⟨?_, by simp, by simp; omega, ?_, ?_, ?_, ?_⟩
    · rw [List.head?_append, inv.first]; rfl
    · rw [List.pairwise_append]
      refine ⟨inv.mono, by simp, ?_⟩
      intro a ha b hb'
      simp at hb'; subst hb'; exact inv.below a ha
    · intro j a b hj h1 h2
      simp at hj
      rcases getElem?_concat_cases h1 h2 with ⟨h3, h4⟩ | ⟨h3, h4⟩
      · exact inv.light j a b h3 h4
      · rw [List.getElem?_append_left (by omega)] at h2
        exact inv.light j a b (by rwa [List.getElem?_append_left (by omega)] at h1) h2
    · intro a ha
      simp only [List.length_append, List.length_singleton] at ha
      rw [List.getElem?_append_left (by omega)] at ha
      have : s.2.getLast? = some a := by rw [List.getLast?_eq_getElem?, ← ha]; congr 1
      have h1 := inv.acc a this
      have h2 := inv.accLast
      omega
    · have := inv.count
      simp only [List.length_append, List.length_singleton]
      rw [show s.2.length + 1 - 2 = s.2.length - 1 by omega]; omega

/-- One entry per block-row. -/
theorem partitionInit_spec {M workers : Nat} (A : BlockMat T) (p : Nat → Nat) (w : Nat → Nat) (hw : 0 < workers)
    (hp : ∀ i, i ≤ A.blockrows → A.blockrowPtr.get i = .ok (p i))
    (hmono : ∀ i, i < A.blockrows → p i ≤ p (i + 1))
    (hM : ∀ i, i ≤ A.blockrows → p i < M)
    (hb : ∀ b, b < p A.blockrows → A.blockNnz b = .ok (w b))
    (hload : ∀ i, i < A.blockrows → load w (p i) (p (i + 1)) < M) :
    ∃ P, partitionInit M workers A = .ok P ∧ P.length = A.blockrows ∧
      ∀ i, i < A.blockrows → ∃ c, P[i]? = some c ∧ ChunksOK w (A.nnz / (2 * workers)) (p i) (p (i + 1)) c := by
  unfold partitionInit
  have hmono' : ∀ i, i ≤ A.blockrows → p i ≤ p A.blockrows := by
    intro i hi
    obtain ⟨d, hd⟩ : ∃ d, A.blockrows = i + d := ⟨A.blockrows - i, by omega⟩
    have : ∀ d, i + d ≤ A.blockrows → p i ≤ p (i + d) := by
      intro d
      induction d with
      | zero => intro _; exact Nat.le_refl _
      | succ d ih => intro h; exact Nat.le_trans (ih (by omega)) (hmono (i + d) (by omega))
    rw [hd]; exact this d (by omega)
  obtain ⟨P, h1, h2⟩ := forLoop_inv (lo := 0) (hi := A.blockrows) (f := fun br l => do
      let lo ← A.blockrowPtr.get br
      let hi ← A.blockrowPtr.get (br + 1)
      let p ← partitionBlockrow M workers A.nnz A.blockNnz lo hi
      Except.ok (l ++ [p])) (s := ([] : List (List Nat)))
    (fun n l => l.length = n ∧ ∀ i, i < n → ∃ c, l[i]? = some c ∧
      ChunksOK w (A.nnz / (2 * workers)) (p i) (p (i + 1)) c) (Nat.zero_le _)
    ⟨rfl, by intro i hi; omega⟩ (by
      intro br l _ hbr ⟨hl, hall⟩
      rw [hp br (by omega), ok_bind, hp (br + 1) (by omega), ok_bind]
      obtain ⟨c, hc1, hc2⟩ := partitionBlockrow_spec (M := M) (nnz := A.nnz) A.blockNnz w (p br) (p (br + 1)) hw
        (hmono br hbr) (hM _ (by omega)) (fun b _ h => hb b (Nat.lt_of_lt_of_le h (hmono' _ (by omega)))) (hload br hbr)
      rw [hc1, ok_bind]
      refine ⟨_, rfl, by simp [hl], ?_⟩
      intro i hi
      by_cases h : i < br
      · obtain ⟨c', h3, h4⟩ := hall i h
        exact ⟨c', by rw [List.getElem?_append_left (by omega)]; exact h3, h4⟩
      · have : i = br := by omega
        subst this
        exact ⟨c, by rw [List.getElem?_append_right (by omega)]; simp [hl], hc2⟩)
  exact ⟨P, h1, h2.1, h2.2⟩

end Gsb
