import Verif.Proof.Kernel
/-
Maximal runs of equal key in a list, built left to right the way the block-scanning loops do.
-/
namespace Gsb
variable {α : Type}

theorem snoc_cases (l : List α) : l = [] ∨ ∃ t b, l = t ++ [b] := by
  rcases List.eq_nil_or_concat l with h | ⟨t, b, h⟩
  · exact .inl h
  · exact .inr ⟨t, b, by simpa using h⟩

/-- Append one element to the runs seen so far: it joins the last run if it has the same key,
otherwise it starts a new one. -/
def addRun (key : α → Nat) (G : List (List α)) (a : α) : List (List α) :=
  match G.getLast? with
  | none => [[a]]
  | some g => if g.head?.map key = some (key a) then G.dropLast ++ [g ++ [a]] else G ++ [[a]]

/-- The maximal runs of equal key. -/
def runs (key : α → Nat) (l : List α) : List (List α) := l.foldl (addRun key) []

/-- The key shared by a run. -/
def runKey (key : α → Nat) (g : List α) : Nat := (g.head?.map key).getD 0

theorem runs_snoc (key : α → Nat) (l : List α) (a : α) :
    runs key (l ++ [a]) = addRun key (runs key l) a := by
  simp [runs, List.foldl_append]

theorem runs_nil (key : α → Nat) : runs key ([] : List α) = [] := rfl

/-- Runs partition the list. -/
structure RunsOK (key : α → Nat) (l : List α) (G : List (List α)) : Prop where
  flat : G.flatten = l
  ne : ∀ g ∈ G, g ≠ []
  same : ∀ g ∈ G, ∀ a ∈ g, key a = runKey key g

theorem runKey_eq {key : α → Nat} {g : List α} {a : α} (h : g ≠ []) (hs : ∀ a ∈ g, ∀ b ∈ g, key a = key b)
    (ha : a ∈ g) : runKey key g = key a := by
  cases g with
  | nil => exact absurd rfl h
  | cons b t => exact hs b (by simp) a ha

theorem runsOK (key : α → Nat) (l : List α) : RunsOK key l (runs key l) := by
  induction l using List.reverseRecOn with
  | nil => exact ⟨rfl, by simp [runs], by simp [runs]⟩
  | append_singleton l a ih =>
    rw [runs_snoc]
    generalize hG : runs key l = G at ih
    clear hG
    unfold addRun
    rcases snoc_cases G with rfl | ⟨G0, g, rfl⟩
    · simp only [List.getLast?_nil]
      have : l = [] := by simpa using ih.flat.symm
      subst this
      refine ⟨by simp, by simp, ?_⟩
      intro g hg b hb
      simp at hg; subst hg; simp at hb; subst hb; rfl
    · simp only [List.getLast?_concat, List.dropLast_concat]
      have hfl := ih.flat
      rw [List.flatten_append] at hfl
      simp at hfl
      split
      · next hk =>
        refine ⟨by rw [← hfl]; simp, ?_, ?_⟩
        · intro g' hg'
          rcases List.mem_append.1 hg' with h | h
          · exact ih.ne _ (by simp [h])
          · simp at h; subst h; simp
        · intro g' hg' b hb
          rcases List.mem_append.1 hg' with h | h
          · exact ih.same _ (by simp [h]) b hb
          · simp at h; subst h
            have hne := ih.ne g (by simp)
            have hs := ih.same g (by simp)
            cases g with
            | nil => exact absurd rfl hne
            | cons c t =>
              simp at hk
              simp only [runKey, List.cons_append, List.head?_cons, Option.map_some, Option.getD_some]
              rcases List.mem_append.1 hb with h | h
              · have := hs b h; simpa [runKey] using this
              · simp at h; subst h; exact hk.symm
      · next hk =>
        refine ⟨by rw [← hfl]; simp, ?_, ?_⟩
        · intro g' hg'
          rcases List.mem_append.1 hg' with h | h
          · exact ih.ne _ h
          · simp at h; subst h; simp
        · intro g' hg' b hb
          rcases List.mem_append.1 hg' with h | h
          · exact ih.same _ h b hb
          · simp at h; subst h; simp at hb; subst hb; rfl

theorem runs_new (key : α → Nat) (l : List α) (a : α)
    (h : ∀ b, l.getLast? = some b → key b ≠ key a) : runs key (l ++ [a]) = runs key l ++ [[a]] := by
  rw [runs_snoc]
  have ok := runsOK key l
  generalize runs key l = G at ok ⊢
  unfold addRun
  rcases snoc_cases G with rfl | ⟨G0, g, rfl⟩
  · simp
  · simp only [List.getLast?_concat]
    split
    · next hk =>
      exfalso
      have hne := ok.ne g (by simp)
      obtain ⟨t, b, rfl⟩ : ∃ t b, g = t ++ [b] := by
        rcases snoc_cases g with h | ⟨t, b, h⟩
        · exact absurd h hne
        · exact ⟨t, b, by simpa using h⟩
      have hl := ok.flat
      rw [List.flatten_append] at hl
      simp at hl
      have hlast : l.getLast? = some b := by rw [← hl, ← List.append_assoc, List.getLast?_concat]
      have h2 := ok.same (t ++ [b]) (by simp) b (by simp)
      unfold runKey at h2
      rw [hk] at h2
      exact h b hlast h2
    · rfl

theorem runs_same (key : α → Nat) (l : List α) (a b : α) (hb : l.getLast? = some b) (h : key b = key a) :
    ∃ G0 g, runs key l = G0 ++ [g] ∧ runs key (l ++ [a]) = G0 ++ [g ++ [a]] ∧ runKey key g = key a ∧ g ≠ [] := by
  rw [runs_snoc]
  have ok := runsOK key l
  generalize runs key l = G at ok ⊢
  rcases snoc_cases G with rfl | ⟨G0, g, rfl⟩
  · have := ok.flat; simp at this; subst this; simp at hb
  · have hne := ok.ne g (by simp)
    have hk : runKey key g = key a := by
      obtain ⟨t, c, rfl⟩ : ∃ t b, g = t ++ [b] := by
        rcases snoc_cases g with h | ⟨t, b, h⟩
        · exact absurd h hne
        · exact ⟨t, b, by simpa using h⟩
      have hl := ok.flat
      rw [List.flatten_append] at hl
      simp at hl
      have hlast : l.getLast? = some c := by rw [← hl, ← List.append_assoc, List.getLast?_concat]
      rw [hlast] at hb
      simp at hb; subst hb
      rw [← h]
      exact (ok.same (t ++ [c]) (by simp) c (by simp)).symm
    refine ⟨G0, g, rfl, ?_, hk, hne⟩
    unfold addRun
    simp only [List.getLast?_concat, List.dropLast_concat]
    rw [if_pos]
    cases g with
    | nil => exact absurd rfl hne
    | cons c t => simpa [runKey] using hk

theorem runs_length_snoc (key : α → Nat) (l : List α) (a : α) :
    (runs key l).length ≤ (runs key (l ++ [a])).length := by
  cases hb : l.getLast? with
  | none => rw [runs_new key l a (by simp [hb])]; simp
  | some b =>
    by_cases h : key b = key a
    · obtain ⟨G0, g, e1, e2, -, -⟩ := runs_same key l a b hb h
      rw [e1, e2]; simp
    · rw [runs_new key l a (by intro c hc; rw [hb] at hc; simp at hc; subst hc; exact h)]; simp

theorem runs_length_append (key : α → Nat) (l l' : List α) :
    (runs key l).length ≤ (runs key (l ++ l')).length := by
  induction l' using List.reverseRecOn with
  | nil => simp
  | append_singleton l' a ih =>
    rw [← List.append_assoc]
    exact Nat.le_trans ih (runs_length_snoc key _ a)

theorem runs_length_le (key : α → Nat) (l : List α) : (runs key l).length ≤ l.length := by
  induction l using List.reverseRecOn with
  | nil => simp [runs]
  | append_singleton l a ih =>
    cases hb : l.getLast? with
    | none => rw [runs_new key l a (by simp [hb])]; simp [ih]
    | some b =>
      by_cases h : key b = key a
      · obtain ⟨G0, g, e1, e2, -, -⟩ := runs_same key l a b hb h
        rw [e1] at ih
        rw [e2]; simp at *; omega
      · rw [runs_new key l a (by intro c hc; rw [hb] at hc; simp at hc; subst hc; exact h)]; simp [ih]

theorem runs_length_pos (key : α → Nat) {l : List α} (h : l ≠ []) : 0 < (runs key l).length := by
  rcases Nat.eq_zero_or_pos (runs key l).length with h0 | h0
  · have := List.length_eq_zero_iff.1 h0
    have ok := (runsOK key l).flat
    rw [this] at ok
    exact absurd ok.symm h
  · exact h0

/-- The keys of the runs. -/
def runKeys (key : α → Nat) (l : List α) : List Nat := (runs key l).map (runKey key)

@[simp] theorem runKeys_length (key : α → Nat) (l : List α) :
    (runKeys key l).length = (runs key l).length := by simp [runKeys]

theorem runKeys_new (key : α → Nat) (l : List α) (a : α)
    (h : ∀ b, l.getLast? = some b → key b ≠ key a) :
    runKeys key (l ++ [a]) = runKeys key l ++ [key a] := by
  unfold runKeys; rw [runs_new key l a h]; simp [runKey]

theorem runKeys_same (key : α → Nat) (l : List α) (a b : α) (hb : l.getLast? = some b) (h : key b = key a) :
    runKeys key (l ++ [a]) = runKeys key l := by
  obtain ⟨G0, g, e1, e2, hk, hne⟩ := runs_same key l a b hb h
  unfold runKeys; rw [e1, e2]
  cases g with
  | nil => exact absurd rfl hne
  | cons c t => simp [runKey]

/-- The last run is that of the last element. -/
theorem runKeys_last (key : α → Nat) (l : List α) (b : α) (hb : l.getLast? = some b) :
    (runKeys key l).getLast? = some (key b) := by
  obtain ⟨l0, rfl⟩ : ∃ l0, l = l0 ++ [b] := by
    rcases snoc_cases l with rfl | ⟨t, c, rfl⟩
    · simp at hb
    · simp at hb; subst hb; exact ⟨t, by simp⟩
  cases hc : l0.getLast? with
  | none => rw [runKeys_new key l0 b (by simp [hc])]; simp
  | some c =>
    by_cases h : key c = key b
    · obtain ⟨G0, g, e1, e2, hk, hne⟩ := runs_same key l0 b c hc h
      unfold runKeys; rw [e2]
      cases g with
      | nil => exact absurd rfl hne
      | cons d t => simpa [runKey] using hk
    · rw [runKeys_new key l0 b (by intro d hd; rw [hc] at hd; simp at hd; subst hd; exact h)]; simp

theorem mem_runKeys (key : α → Nat) (l : List α) (k : Nat) : k ∈ runKeys key l ↔ ∃ a ∈ l, key a = k := by
  have ok := runsOK key l
  constructor
  · intro h
    obtain ⟨g, hg, rfl⟩ := List.mem_map.1 h
    have hne := ok.ne g hg
    cases g with
    | nil => exact absurd rfl hne
    | cons c t => exact ⟨c, by rw [← ok.flat]; exact List.mem_flatten.2 ⟨_, hg, by simp⟩, rfl⟩
  · rintro ⟨a, ha, rfl⟩
    rw [← ok.flat] at ha
    obtain ⟨g, hg, hag⟩ := List.mem_flatten.1 ha
    rw [ok.same g hg a hag]
    exact List.mem_map_of_mem hg

/-- On a list sorted by key, the run keys increase strictly. -/
theorem runKeys_sorted (key : α → Nat) (l : List α) (hs : l.Pairwise (fun a b => key a ≤ key b)) :
    (runKeys key l).Pairwise (· < ·) := by
  induction l using List.reverseRecOn with
  | nil => simp [runKeys, runs]
  | append_singleton l a ih =>
    rw [List.pairwise_append] at hs
    have ih := ih hs.1
    have hnew : (∀ b, l.getLast? = some b → key b ≠ key a) →
        (runKeys key (l ++ [a])).Pairwise (· < ·) := by
      intro h
      rw [runKeys_new key l a h, List.pairwise_append]
      refine ⟨ih, by simp, ?_⟩
      intro k hk k' hk'
      simp at hk'; subst hk'
      obtain ⟨c, hc, rfl⟩ := (mem_runKeys key l k).1 hk
      cases hb : l.getLast? with
      | none => simp at hb; subst hb; simp at hc
      | some b =>
        have hbm : b ∈ l := List.mem_of_getLast? hb
        have h1 := h b hb
        have h2 := hs.2.2 b hbm a (by simp)
        have h3 : key c ≤ key b := by
          obtain ⟨l0, rfl⟩ : ∃ l0, l = l0 ++ [b] := by
            rcases snoc_cases l with rfl | ⟨t, d, rfl⟩
            · simp at hb
            · simp at hb; subst hb; exact ⟨t, by simp⟩
          rcases List.mem_append.1 hc with h | h
          · have := hs.1; rw [List.pairwise_append] at this
            exact this.2.2 c h b (by simp)
          · simp at h; subst h; exact Nat.le_refl _
        omega
    cases hb : l.getLast? with
    | none => exact hnew (by simp [hb])
    | some b =>
      by_cases h : key b = key a
      · rw [runKeys_same key l a b hb h]; exact ih
      · exact hnew (by intro c hc; rw [hb] at hc; simp at hc; subst hc; exact h)

theorem take_succ_eq {l : List α} {i : Nat} (hi : i < l.length) : l.take (i + 1) = l.take i ++ [l[i]] := by
  rw [List.take_add_one]; simp [hi]

theorem getLast?_take {l : List α} {i : Nat} (hi : i < l.length) : (l.take (i + 1)).getLast? = some l[i] := by
  rw [take_succ_eq hi, List.getLast?_concat]

theorem runs_take_le (key : α → Nat) (l : List α) (i : Nat) :
    (runs key (l.take i)).length ≤ (runs key l).length := by
  have := runs_length_append key (l.take i) (l.drop i)
  rwa [List.take_append_drop] at this

theorem runKeys_prefix (key : α → Nat) (l l' : List α) : runKeys key l <+: runKeys key (l ++ l') := by
  induction l' using List.reverseRecOn with
  | nil => simp
  | append_singleton l' a ih =>
    rw [← List.append_assoc]
    refine ih.trans ?_
    generalize l ++ l' = m
    cases hb : m.getLast? with
    | none => rw [runKeys_new key m a (by simp [hb])]; simp
    | some b =>
      by_cases h : key b = key a
      · rw [runKeys_same key m a b hb h]
      · rw [runKeys_new key m a (by intro c hc; rw [hb] at hc; simp at hc; subst hc; exact h)]; simp

theorem rank_getElem (K : List Nat) (hK : K.Pairwise (· < ·)) (j : Nat) (hj : j < K.length) :
    K.countP (fun k => decide (k < K[j])) = j := by
  induction K generalizing j with
  | nil => simp at hj
  | cons a K ih =>
    rw [List.pairwise_cons] at hK
    cases j with
    | zero =>
      rw [List.countP_eq_zero]
      intro b hb
      rcases List.mem_cons.1 hb with rfl | hb
      · simp
      · have := hK.1 b hb; simp; omega
    | succ j =>
      have hj' : j < K.length := by simpa using hj
      have h1 := hK.1 _ (List.getElem_mem hj')
      simp only [List.getElem_cons_succ]
      rw [List.countP_cons, ih hK.2 j hj']
      simp [h1]

/-- The number of runs started once element `i` is in is the rank of its key plus one. -/
theorem runKeys_take (key : α → Nat) (l : List α) (hs : l.Pairwise (fun a b => key a ≤ key b))
    (i : Nat) (hi : i < l.length) :
    (runs key (l.take (i + 1))).length = (runKeys key l).countP (fun k => decide (k < key l[i])) + 1 ∧
    (runKeys key l)[(runs key (l.take (i + 1))).length - 1]? = some (key l[i]) := by
  have hp := runKeys_prefix key (l.take (i + 1)) (l.drop (i + 1))
  rw [List.take_append_drop] at hp
  have hlast := runKeys_last key _ _ (getLast?_take hi)
  have hpos : 0 < (runs key (l.take (i + 1))).length :=
    runs_length_pos key (by intro h; rw [take_succ_eq hi] at h; exact List.append_ne_nil_of_right_ne_nil _ (by simp) h)
  have h1 : (runKeys key l)[(runs key (l.take (i + 1))).length - 1]? = some (key l[i]) := by
    rw [List.getLast?_eq_getElem?, runKeys_length] at hlast
    obtain ⟨t, ht⟩ := hp
    rw [← ht, List.getElem?_append_left (by simp; omega)]
    exact hlast
  refine ⟨?_, h1⟩
  have hK := runKeys_sorted key l hs
  obtain ⟨hj, hj2⟩ := List.getElem?_eq_some_iff.1 h1
  have := rank_getElem _ hK _ hj
  rw [hj2] at this
  omega

/-- Start of run `k` in the list. -/
def runStart (key : α → Nat) (l : List α) (k : Nat) : Nat := (((runs key l).take k).map List.length).sum

/-- Element `j` of run `k` is element `runStart k + j` of the list. -/
theorem runs_getElem (key : α → Nat) (l : List α) (k : Nat) (hk : k < (runs key l).length) (j : Nat)
    (hj : j < ((runs key l)[k]).length) :
    l[runStart key l k + j]? = some ((runs key l)[k])[j] := by
  have ok := (runsOK key l).flat
  unfold runStart
  generalize runs key l = G at *
  subst ok
  induction G generalizing k with
  | nil => simp at hk
  | cons g G ih =>
    cases k with
    | zero =>
      simp at hj
      simp [hj, List.getElem?_append_left]
    | succ k =>
      simp only [List.take_succ_cons, List.map_cons, List.sum_cons, List.flatten_cons, List.getElem_cons_succ]
      rw [Nat.add_assoc, List.getElem?_append_right (by omega)]
      rw [Nat.add_sub_cancel_left]
      exact ih k (by simpa using hk) (by simpa using hj)

theorem runStart_succ (key : α → Nat) (l : List α) (k : Nat) (hk : k < (runs key l).length) :
    runStart key l (k + 1) = runStart key l k + ((runs key l)[k]).length := by
  unfold runStart
  rw [take_succ_eq hk, List.map_append, List.sum_append]; simp

theorem runStart_length (key : α → Nat) (l : List α) : runStart key l (runs key l).length = l.length := by
  unfold runStart
  rw [List.take_length]
  conv => rhs; rw [← (runsOK key l).flat]
  rw [List.length_flatten]

end Gsb
