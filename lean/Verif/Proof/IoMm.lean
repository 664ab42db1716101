import Verif.Model.IoMm
/-
Lemmas about the scanner of the MatrixMarket reader.
-/
namespace Gsb
variable {T : Type}

/-- `t` is empty or starts with something not in `p`. -/
def Stop (p : UInt8 → Bool) (t : Bytes) : Prop := ∀ b, t.head? = some b → p b = false

theorem stop_nil (p : UInt8 → Bool) : Stop p [] := by intro b h; cases h

theorem stop_cons {p : UInt8 → Bool} {b : UInt8} {t : Bytes} : Stop p (b :: t) ↔ p b = false := by
  simp [Stop]

theorem stop_append {p : UInt8 → Bool} {a t : Bytes} (h : Stop p a) (hne : a ≠ []) : Stop p (a ++ t) := by
  cases a with
  | nil => exact absurd rfl hne
  | cons b a => simpa [Stop] using h

theorem blank_not_digit {b : UInt8} (h : isBlank b = true) : isDigit b = false := by
  revert h; unfold isBlank isDigit
  simp only [Bool.or_eq_true, beq_iff_eq, Bool.and_eq_true, decide_eq_true_eq, Bool.and_eq_false_iff, decide_eq_false_iff_not,
    UInt8.le_iff_toNat_le]
  rintro (rfl | h)
  · left; decide
  · left; have := h.2; simp at this ⊢; omega

theorem digit_not_blank {b : UInt8} (h : isDigit b = true) : isBlank b = false := by
  cases hb : isBlank b with
  | false => rfl
  | true => rw [blank_not_digit hb] at h; cases h

theorem dropWhile_all {p : UInt8 → Bool} {a t : Bytes} (h : ∀ b ∈ a, p b = true) :
    (a ++ t).dropWhile p = t.dropWhile p := by
  induction a with
  | nil => rfl
  | cons b a ih =>
    rw [List.cons_append, List.dropWhile_cons_of_pos (h b (by simp))]
    exact ih (fun c hc => h c (by simp [hc]))

theorem takeWhile_all {p : UInt8 → Bool} {a t : Bytes} (h : ∀ b ∈ a, p b = true) :
    (a ++ t).takeWhile p = a ++ t.takeWhile p := by
  induction a with
  | nil => rfl
  | cons b a ih =>
    rw [List.cons_append, List.takeWhile_cons_of_pos (h b (by simp)), ih (fun c hc => h c (by simp [hc]))]
    rfl

theorem dropWhile_stop {p : UInt8 → Bool} {t : Bytes} (h : Stop p t) : t.dropWhile p = t := by
  cases t with
  | nil => rfl
  | cons b t => rw [List.dropWhile_cons_of_neg (by simp [stop_cons.1 h])]

theorem takeWhile_stop {p : UInt8 → Bool} {t : Bytes} (h : Stop p t) : t.takeWhile p = [] := by
  cases t with
  | nil => rfl
  | cons b t => rw [List.takeWhile_cons_of_neg (by simp [stop_cons.1 h])]

theorem dropWhile_head {p : UInt8 → Bool} {s t : Bytes} {c : UInt8} (h : s.dropWhile p = c :: t) : p c = false := by
  induction s with
  | nil => cases h
  | cons b s ih =>
    by_cases hb : p b = true
    · rw [List.dropWhile_cons_of_pos hb] at h; exact ih h
    · rw [List.dropWhile_cons_of_neg hb] at h
      cases h
      simpa using hb

theorem skipWs_blank {a : Bytes} (t : Bytes) (h : Blank a) : skipWs (a ++ t) = skipWs t := dropWhile_all h

theorem skipWs_stop {t : Bytes} (h : Stop isBlank t) : skipWs t = t := dropWhile_stop h

theorem skipWs_skipWs (t : Bytes) : skipWs (skipWs t) = skipWs t := by
  induction t with
  | nil => rfl
  | cons b t ih =>
    by_cases hb : isBlank b = true
    · simp only [skipWs, List.dropWhile_cons_of_pos hb] at ih ⊢; exact ih
    · simp only [skipWs, List.dropWhile_cons_of_neg hb]

theorem stop_blank_of_digits {d t : Bytes} (h : Digits d) (hne : d ≠ []) : Stop isBlank (d ++ t) := by
  cases d with
  | nil => exact absurd rfl hne
  | cons b d => rw [List.cons_append, stop_cons]; exact digit_not_blank (h b (by simp))

/-- A blank text or the end stops a run of digits. -/
theorem stop_digit_of_blank {a t : Bytes} (h : Blank a) (hne : a ≠ []) : Stop isDigit (a ++ t) := by
  cases a with
  | nil => exact absurd rfl hne
  | cons b a => rw [List.cons_append, stop_cons]; exact blank_not_digit (h b (by simp))

theorem scanSign_digit {b : UInt8} {t : Bytes} (h : isDigit b = true) : scanSign (b :: t) = (false, b :: t) := by
  have h1 : b ≠ 45 := by rintro rfl; revert h; decide
  have h2 : b ≠ 43 := by rintro rfl; revert h; decide
  simp [scanSign, h1, h2]

/-- Digits are a numeral. -/
theorem Unsigned.numeral {t : Bytes} {n : Nat} (h : Unsigned t n) : Numeral t n := by
  obtain ⟨hne, hdig, hval⟩ := h
  cases t with
  | nil => exact absurd rfl hne
  | cons b t =>
    have hb : b ≠ 43 := by
      rintro rfl
      exact absurd (hdig 43 (by simp)) (by decide)
    unfold Numeral unplus
    rw [if_neg (by simpa using hb)]
    exact ⟨hne, hdig, hval⟩

/-- A numeral is digits, or a plus sign and digits. -/
theorem Numeral.cases {t : Bytes} {n : Nat} (h : Numeral t n) : Unsigned t n ∨ ∃ d, t = 43 :: d ∧ Unsigned d n := by
  unfold Numeral unplus at h
  split at h
  · rename_i hp
    cases t with
    | nil => cases hp
    | cons b t => simp only [List.head?_cons, Option.some.injEq] at hp; subst hp; exact .inr ⟨t, rfl, h⟩
  · exact .inl h

theorem Numeral.stop_blank {d t : Bytes} {n : Nat} (h : Numeral d n) : Stop isBlank (d ++ t) := by
  rcases h.cases with h | ⟨d, rfl, h⟩
  · exact stop_blank_of_digits h.2.1 h.1
  · rw [List.cons_append, stop_cons]; decide

/-- What a run of digits is read as. -/
theorem scanInt_unsigned {a d rest : Bytes} {n : Nat} (ha : Blank a) (hd : Unsigned d n) (hr : Stop isDigit rest) :
    scanInt (a ++ (d ++ rest)) = .got (false, n) rest := by
  obtain ⟨hne, hdig, hval⟩ := hd
  unfold scanInt
  rw [skipWs_blank _ ha, skipWs_stop (stop_blank_of_digits hdig hne)]
  cases d with
  | nil => exact absurd rfl hne
  | cons b d =>
    rw [List.cons_append]
    simp only
    rw [scanSign_digit (hdig b (by simp))]
    simp only
    rw [← List.cons_append, takeWhile_all hdig, dropWhile_all hdig, takeWhile_stop hr, dropWhile_stop hr]
    simp [hval]

/-- The same with a plus sign. -/
theorem scanInt_plus {a d rest : Bytes} {n : Nat} (ha : Blank a) (hd : Unsigned d n) (hr : Stop isDigit rest) :
    scanInt (a ++ (43 :: (d ++ rest))) = .got (false, n) rest := by
  obtain ⟨hne, hdig, hval⟩ := hd
  unfold scanInt
  rw [skipWs_blank _ ha, skipWs_stop (stop_cons.2 (by decide))]
  simp only [scanSign, if_true]
  rw [if_neg (show ¬ ((43 : UInt8) = 45) by decide)]
  simp only
  rw [takeWhile_all hdig, dropWhile_all hdig, takeWhile_stop hr, dropWhile_stop hr]
  simp [hval, hne]

/-- What a numeral is read as. -/
theorem scanInt_numeral {a d rest : Bytes} {n : Nat} (ha : Blank a) (hd : Numeral d n) (hr : Stop isDigit rest) :
    scanInt (a ++ (d ++ rest)) = .got (false, n) rest := by
  rcases hd.cases with h | ⟨d, rfl, h⟩
  · exact scanInt_unsigned ha h hr
  · rw [List.cons_append]; exact scanInt_plus ha h hr

/-- The same with a minus sign. -/
theorem scanInt_neg {a d rest : Bytes} {n : Nat} (ha : Blank a) (hd : Unsigned d n) (hr : Stop isDigit rest) :
    scanInt (a ++ (45 :: (d ++ rest))) = .got (true, n) rest := by
  obtain ⟨hne, hdig, hval⟩ := hd
  unfold scanInt
  rw [skipWs_blank _ ha, skipWs_stop (stop_cons.2 (by decide))]
  simp only [scanSign, if_true]
  rw [takeWhile_all hdig, dropWhile_all hdig, takeWhile_stop hr, dropWhile_stop hr]
  simp [hval, hne]

theorem scanLu_numeral {a d rest : Bytes} {n : Nat} (ha : Blank a) (hd : Numeral d n) (hn : n < 2 ^ 64)
    (hr : Stop isDigit rest) : scanLu (a ++ (d ++ rest)) = .ok (.got n rest) := by
  simp only [scanLu, scanInt_numeral ha hd hr, if_pos hn]; rfl

theorem scanD_numeral {a d rest : Bytes} {n : Nat} (ha : Blank a) (hd : Numeral d n) (hn : n < 2 ^ 31)
    (hr : Stop isDigit rest) : scanD (a ++ (d ++ rest)) = .ok (.got (n : Int) rest) := by
  simp only [scanD, scanInt_numeral ha hd hr, if_pos hn]; rfl

theorem scanInt_skipWs (s : Bytes) : scanInt (skipWs s) = scanInt s := by
  unfold scanInt; rw [skipWs_skipWs]

theorem scanLu_skipWs (s : Bytes) : scanLu (skipWs s) = scanLu s := by
  unfold scanLu; rw [scanInt_skipWs]

/-- White space in front of an entry does not matter. -/
theorem scanEntry_skipWs (conv : Bytes → T) (v : MmVars T) (s : Bytes) :
    scanEntry conv v (skipWs s) = scanEntry conv v s := by
  unfold scanEntry; rw [scanLu_skipWs]

theorem scanSign_text {s t : Bytes} (hs : SignText s) (ht : Stop (fun b => b == 45 || b == 43) t) :
    (scanSign (s ++ t)).2 = t := by
  rcases hs with rfl | rfl | rfl
  · cases t with
    | nil => rfl
    | cons b t =>
      have := stop_cons.1 ht
      simp only [Bool.or_eq_false_iff, beq_eq_false_iff_ne] at this
      simp [scanSign, this.1, this.2]
  · simp [scanSign, chars]
  · simp [scanSign, chars]

/-- What stops a decimal number. -/
def EndsNumber (rest : Bytes) : Prop := ∀ b, rest.head? = some b → isDigit b = false ∧ b ≠ 46 ∧ b ≠ 69 ∧ b ≠ 101 ∧ b ≠ 88 ∧ b ≠ 120

theorem endsNumber_nil : EndsNumber [] := by intro b h; cases h

theorem endsNumber_blank {a t : Bytes} (h : Blank a) (ht : EndsNumber t) : EndsNumber (a ++ t) := by
  cases a with
  | nil => exact ht
  | cons b a =>
    intro c hc
    simp only [List.cons_append, List.head?_cons, Option.some.injEq] at hc
    subst hc
    have hb := h b (by simp)
    refine ⟨blank_not_digit hb, ?_, ?_, ?_, ?_, ?_⟩ <;> (rintro rfl; revert hb; decide)

theorem EndsNumber.stop {t : Bytes} (h : EndsNumber t) : Stop isDigit t := fun b hb => (h b hb).1

theorem digit_not_sign {b : UInt8} (h : isDigit b = true) : (b == 45 || b == 43) = false := by
  have h1 : b ≠ 45 := by rintro rfl; revert h; decide
  have h2 : b ≠ 43 := by rintro rfl; revert h; decide
  simp [h1, h2]

theorem stop_sign_digits {d t : Bytes} (h : Digits d) (hne : d ≠ []) : Stop (fun b => b == 45 || b == 43) (d ++ t) := by
  cases d with
  | nil => exact absurd rfl hne
  | cons b d => rw [List.cons_append, stop_cons]; exact digit_not_sign (h b (by simp))

/-- The exponent, or nothing, is read as such. -/
theorem scanExp_text {e : Option (UInt8 × Bytes × Bytes)} {rest : Bytes}
    (he : ∀ e' s d, e = some (e', s, d) → (e' = 69 ∨ e' = 101) ∧ SignText s ∧ Digits d ∧ d ≠ [])
    (hr : EndsNumber rest) :
    ∃ x, scanExp (expText e ++ rest) = (some x, rest) := by
  match e, he with
  | none, _ =>
    cases rest with
    | nil => exact ⟨[], rfl⟩
    | cons b t =>
      have := hr b rfl
      exact ⟨[], by simp [expText, scanExp, this.2.2.1, this.2.2.2.1]⟩
  | some (e', s, d), he =>
    obtain ⟨h1, h2, h3, h4⟩ := he e' s d rfl
    refine ⟨d, ?_⟩
    simp only [expText, List.cons_append, scanExp, if_pos h1]
    rw [List.append_assoc, scanSign_text h2 (stop_sign_digits h3 h4), takeWhile_all h3, dropWhile_all h3,
      takeWhile_stop hr.stop, dropWhile_stop hr.stop]
    simp [h4]

/-- Head of what follows the digits of a decimal number. -/
theorem exp_ends {e : Option (UInt8 × Bytes × Bytes)} {rest : Bytes}
    (he : ∀ e' s d, e = some (e', s, d) → (e' = 69 ∨ e' = 101) ∧ SignText s ∧ Digits d ∧ d ≠ [])
    (hr : EndsNumber rest) (b : UInt8)
    (hb : (expText e ++ rest).head? = some b) :
    isDigit b = false ∧ b ≠ 46 ∧ b ≠ 88 ∧ b ≠ 120 := by
  match e, he with
  | none, _ => have := hr b (by simpa [expText] using hb); exact ⟨this.1, this.2.1, this.2.2.2.2.1, this.2.2.2.2.2⟩
  | some (e', s, d), he =>
    obtain ⟨h1, -⟩ := he e' s d rfl
    simp only [expText, List.cons_append, List.head?_cons, Option.some.injEq] at hb
    subst hb
    rcases h1 with rfl | rfl <;> decide

/-- A decimal number is read whole. -/
theorem scanLg_text (conv : Bytes → T) {a rest : Bytes} {v : DecText} (ha : Blank a) (hv : v.Ok) (hr : EndsNumber rest) :
    scanLg conv (a ++ (v.text ++ rest)) = .ok (.got (conv v.text) rest) := by
  obtain ⟨sg, it, fr, ex⟩ := v
  obtain ⟨hs, hi, hf, hsome, he⟩ := hv
  simp only at hs hi hf hsome he
  obtain ⟨x, hx⟩ := scanExp_text he hr
  have hends := exp_ends he hr
  -- the parts
  generalize hE : expText ex = E at hx hends
  generalize hF : fracText fr = F
  have htext : (DecText.mk sg it fr ex).text = sg ++ it ++ F ++ E := by rw [DecText.text, hE, hF]
  rw [htext]
  -- first character after the sign
  have hfirst : ∃ b t, it ++ (F ++ (E ++ rest)) = b :: t ∧ (isDigit b = true ∨ b = 46) ∧
      (b = 48 → t.head? ≠ some 88 ∧ t.head? ≠ some 120) := by
    cases it with
    | nil =>
      rcases hsome with h | ⟨d, hd, hne⟩
      · exact absurd rfl h
      · subst hd
        simp only [fracText] at hF
        refine ⟨46, d ++ (E ++ rest), ?_, .inr rfl, fun h => absurd h (by decide)⟩
        rw [← hF]; simp [chars]
    | cons b it =>
      refine ⟨b, it ++ (F ++ (E ++ rest)), rfl, .inl (hi b (by simp)), fun _ => ?_⟩
      have hall : ∀ c, (it ++ (F ++ (E ++ rest))).head? = some c → c ≠ 88 ∧ c ≠ 120 := by
        intro c hc
        cases it with
        | cons b' it =>
          simp only [List.cons_append, List.head?_cons, Option.some.injEq] at hc
          subst hc
          have := hi b' (by simp)
          constructor <;> (rintro rfl; revert this; decide)
        | nil =>
          cases fr with
          | none =>
            simp only [fracText] at hF; subst hF
            exact ⟨(hends c (by simpa using hc)).2.2.1, (hends c (by simpa using hc)).2.2.2⟩
          | some d =>
            simp only [fracText] at hF; subst hF
            simp [chars] at hc
            subst hc
            decide
      exact ⟨fun h => (hall _ h).1 rfl, fun h => (hall _ h).2 rfl⟩
  obtain ⟨b0, t0, hbt, hb0, h48⟩ := hfirst
  have hnum : ¬ unmodelledLg (b0 :: t0) = true := by
    simp only [unmodelledLg, Bool.or_eq_true, Bool.and_eq_true, List.contains_cons, beq_iff_eq, List.contains_nil]
    rintro (h | ⟨h, h'⟩)
    · rcases hb0 with hd | rfl
      · rcases h with rfl | rfl | rfl | rfl | h
        · revert hd; decide
        · revert hd; decide
        · revert hd; decide
        · revert hd; decide
        · cases h
      · revert h; decide
    · obtain ⟨h1, h2⟩ := h48 h
      rcases h' with h' | h' | h'
      · exact h1 h'
      · exact h2 h'
      · cases h'
  have hsgn : Stop (fun b => b == 45 || b == 43) (b0 :: t0) := by
    rw [stop_cons]
    rcases hb0 with hd | rfl
    · exact digit_not_sign hd
    · decide
  have hws : Stop isBlank (sg ++ (b0 :: t0)) := by
    rcases hs with rfl | rfl | rfl
    · rw [List.nil_append, stop_cons]
      rcases hb0 with hd | rfl
      · exact digit_not_blank hd
      · decide
    · exact stop_cons.2 (by decide)
    · exact stop_cons.2 (by decide)
  have hscan := scanSign_text hs hsgn
  -- digits of the integer part
  have hFstop : Stop isDigit (F ++ (E ++ rest)) := by
    cases fr with
    | none => simp only [fracText] at hF; subst hF; exact fun b hb => (hends b (by simpa using hb)).1
    | some d => simp only [fracText] at hF; subst hF; simp [chars, stop_cons]; decide
  have htw : (b0 :: t0).takeWhile isDigit = it := by
    rw [← hbt, takeWhile_all hi, takeWhile_stop hFstop, List.append_nil]
  have hdw : (b0 :: t0).dropWhile isDigit = F ++ (E ++ rest) := by
    rw [← hbt, dropWhile_all hi, dropWhile_stop hFstop]
  -- the fraction
  have hfrac : scanFrac (F ++ (E ++ rest)) = (fr, E ++ rest) := by
    cases fr with
    | none =>
      simp only [fracText] at hF; subst hF
      rw [List.nil_append]
      generalize hq : E ++ rest = q at hends
      cases q with
      | nil => rfl
      | cons b t => simp [scanFrac, (hends b rfl).2.1]
    | some d =>
      simp only [fracText] at hF; subst hF
      have hd := hf d rfl
      have hst : Stop isDigit (E ++ rest) := fun b hb => (hends b hb).1
      simp only [chars, scanFrac]
      simp [takeWhile_all hd, dropWhile_all hd, takeWhile_stop hst, dropWhile_stop hst]
  have hnot : ¬ (it = [] ∧ (fr = none ∨ fr = some [])) := by
    rintro ⟨h1, h2⟩
    rcases hsome with h | ⟨d, hd, hne⟩
    · exact h h1
    · rcases h2 with h2 | h2
      · rw [h2] at hd; cases hd
      · rw [h2] at hd; cases hd; exact hne rfl
  have hwhole : sg ++ it ++ F ++ E ++ rest = sg ++ (b0 :: t0) := by rw [← hbt]; simp
  rw [hwhole]
  unfold scanLg
  rw [skipWs_blank _ ha, skipWs_stop hws]
  generalize hq : sg ++ (b0 :: t0) = q at hscan hwhole
  cases q with
  | nil => simp at hq
  | cons b t =>
    simp only [hscan]
    rw [if_neg hnum, htw, hdw, hfrac]
    simp only [if_neg hnot, hx]
    rw [← hwhole]
    have : (sg ++ it ++ F ++ E ++ rest).take ((sg ++ it ++ F ++ E ++ rest).length - rest.length) = sg ++ it ++ F ++ E := by
      rw [List.length_append, Nat.add_sub_cancel, List.take_left']
      rfl
    rw [this]

/-! ### Entry lines -/

theorem scanEntry_line (conv : Bytes → T) (v : MmVars T) {l : MmLine} {rest : Bytes}
    (hl : l.Syntax) (hr : l.row < 2 ^ 64) (hc : l.col < 2 ^ 64) (he : EndsNumber rest) :
    scanEntry conv v (l.text ++ rest) = .ok (3, ⟨some l.row, some l.col, some (conv l.val.text)⟩, skipWs rest) := by
  have h1 : scanLu (l.text ++ rest) = .ok (.got l.row (l.b1 ++ (l.colText ++ (l.b2 ++ (l.val.text ++ (l.b3 ++ rest)))))) := by
    rw [MmLine.text]
    simp only [List.append_assoc]
    exact scanLu_numeral hl.b0 hl.rowText hr (stop_digit_of_blank hl.b1.1 hl.b1.2)
  have h2 : scanLu (l.b1 ++ (l.colText ++ (l.b2 ++ (l.val.text ++ (l.b3 ++ rest))))) =
      .ok (.got l.col (l.b2 ++ (l.val.text ++ (l.b3 ++ rest)))) :=
    scanLu_numeral hl.b1.1 hl.colText hc (stop_digit_of_blank hl.b2.1 hl.b2.2)
  have h3 : scanLg conv (l.b2 ++ (l.val.text ++ (l.b3 ++ rest))) = .ok (.got (conv l.val.text) (l.b3 ++ rest)) :=
    scanLg_text conv hl.b2.1 hl.val (endsNumber_blank hl.b3 he)
  unfold scanEntry
  simp only [h1, ok_bind, h2, h3, skipWs_blank _ hl.b3]

theorem skipWs_all {t : Bytes} (h : Blank t) : skipWs t = [] := by
  have := skipWs_blank [] h
  rw [List.append_nil] at this
  exact this

theorem scanEntry_end (conv : Bytes → T) (v : MmVars T) : scanEntry conv v [] = .ok (-1, v, []) := rfl

theorem joinLines_cons (l : Bytes) (ls : List Bytes) {tail : Bytes} (ht : Blank tail) :
    ∃ rest, joinLines (l :: ls) tail = l ++ rest ∧ skipWs rest = skipWs (joinLines ls tail) ∧ EndsNumber rest := by
  cases ls with
  | nil =>
    refine ⟨tail, rfl, rfl, ?_⟩
    have := endsNumber_blank ht endsNumber_nil
    rwa [List.append_nil] at this
  | cons l' ls =>
    refine ⟨nl :: joinLines (l' :: ls) tail, rfl, ?_, ?_⟩
    · exact skipWs_blank (a := [nl]) _ (by intro b hb; simp at hb; subst hb; decide)
    · intro b hb
      simp only [List.head?_cons, Option.some.injEq] at hb
      subst hb
      decide

theorem mmLoop_skipWs (M : Nat) (conv : Bytes → T) (sym : Bool) (n fuel i : Nat) (v : MmVars T) (s : Bytes) (A : CooA T) :
    mmLoop M conv sym n fuel i v (skipWs s) A = mmLoop M conv sym n fuel i v s A := by
  cases fuel with
  | zero => rfl
  | succ f => simp only [mmLoop, scanEntry_skipWs]

theorem mmCount_skipWs (conv : Bytes → T) (n k : Nat) (v : MmVars T) (s : Bytes) :
    mmCount conv n v k (skipWs s) = mmCount conv n v k s := by
  cases n with
  | zero => rfl
  | succ f => simp only [mmCount, scanEntry_skipWs]

/-- The first cells of the arrays hold these entries. -/
structure CooA.Holds (A : CooA T) (n : Nat) (l : List (Ent T)) : Prop where
  row : A.row.len = n
  col : A.col.len = n
  val : A.val.len = n
  cells : ∀ k (h : k < l.length), A.row.dat k = some l[k].row ∧ A.col.dat k = some l[k].col ∧ A.val.dat k = some l[k].val

theorem CooA.Holds.setPoint {A : CooA T} {n : Nat} {l : List (Ent T)} (h : A.Holds n l) (hn : l.length < n) (e : Ent T) :
    ∃ A', A.setPoint l.length e.row e.col e.val = .ok A' ∧ A'.Holds n (l ++ [e]) ∧
      A'.rows = A.rows ∧ A'.columns = A.columns ∧ A'.nnz = A.nnz := by
  refine ⟨{ A with
    row := ⟨A.row.len, fun k => if k = l.length then some e.row else A.row.dat k⟩,
    col := ⟨A.col.len, fun k => if k = l.length then some e.col else A.col.dat k⟩,
    val := ⟨A.val.len, fun k => if k = l.length then some e.val else A.val.dat k⟩ }, ?_, ⟨h.row, h.col, h.val, ?_⟩, rfl, rfl, rfl⟩
  · unfold CooA.setPoint Buf.put
    rw [if_pos (by rw [h.row]; exact hn), if_pos (by rw [h.col]; exact hn), if_pos (by rw [h.val]; exact hn)]
    rfl
  · intro k hk
    simp only [List.length_append, List.length_cons, List.length_nil] at hk
    by_cases hkl : k = l.length
    · subst hkl; simp
    · have hlt : k < l.length := by omega
      simp only [if_neg hkl, List.getElem_append_left hlt]
      exact h.cells k hlt

theorem CooA.Holds.ents {A : CooA T} {n : Nat} {l : List (Ent T)} (h : A.Holds n l) (hn : l.length ≤ n)
    (hz : A.nnz = some l.length) : A.ents = .ok l := by
  unfold CooA.ents
  rw [hz]
  simp only
  have : ∀ k (hk : k < l.length), A.ent k = .ok l[k] := by
    intro k hk
    obtain ⟨h1, h2, h3⟩ := h.cells k hk
    unfold CooA.ent Buf.get
    rw [if_pos (by rw [h.row]; omega), if_pos (by rw [h.col]; omega), if_pos (by rw [h.val]; omega), h1, h2, h3]
    rfl
  have key : ∀ m, m ≤ l.length → (List.range m).mapM A.ent = .ok (l.take m) := by
    intro m
    induction m with
    | zero => intro _; rfl
    | succ m ih =>
      intro hm
      rw [List.range_succ, List.mapM_append, ih (by omega)]
      simp only [List.mapM_cons, List.mapM_nil, this m (by omega)]
      rw [List.take_add_one, List.getElem?_eq_getElem (by omega)]
      rfl
  rw [key _ (Nat.le_refl _), List.take_length]

/-- What a line contributes to the matrix read. -/
def MmLine.out (conv : Bytes → T) (sym : Bool) (l : MmLine) : List (Ent T) :=
  if sym then mirrored (l.ent conv) else [l.ent conv]

theorem fromOne_eq {M r : Nat} (h1 : 1 ≤ r) (h2 : r < 2 ^ 64) (h3 : r - 1 < M) : fromOne M r = r - 1 := by
  unfold fromOne
  have : (r + (2 ^ 64 - 1)) % 2 ^ 64 = r - 1 := by omega
  rw [this, Nat.mod_eq_of_lt h3]

theorem out_eq (conv : Bytes → T) (sym : Bool) {l : MmLine} (h1 : 1 ≤ l.row) (h2 : 1 ≤ l.col) :
    l.out conv sym = if sym && l.row != l.col
      then [l.ent conv, ⟨l.col - 1, l.row - 1, conv l.val.text⟩] else [l.ent conv] := by
  unfold MmLine.out mirrored MmLine.ent
  cases sym with
  | false => rfl
  | true =>
    by_cases h : l.row = l.col
    · simp [h]
    · have : ¬ l.row - 1 = l.col - 1 := by omega
      simp [h, this]

/-- What the loop stores for a line. -/
def MmLine.raw (M : Nat) (conv : Bytes → T) (sym : Bool) (l : MmLine) : List (Ent T) :=
  if sym && l.row != l.col
  then [⟨fromOne M l.row, fromOne M l.col, conv l.val.text⟩, ⟨fromOne M l.col, fromOne M l.row, conv l.val.text⟩]
  else [⟨fromOne M l.row, fromOne M l.col, conv l.val.text⟩]

theorem raw_eq_out {M : Nat} (conv : Bytes → T) (sym : Bool) {l : MmLine} {rows columns : Nat} (hl : l.Ok rows columns)
    (hr : rows < 2 ^ 64) (hc : columns < 2 ^ 64) (hrM : rows ≤ M) (hcM : columns ≤ M) : l.raw M conv sym = l.out conv sym := by
  have hr1 := hl.row
  have hc1 := hl.col
  rw [out_eq conv sym hr1.1 hc1.1]
  unfold MmLine.raw MmLine.ent
  rw [fromOne_eq hr1.1 (by omega) (by omega), fromOne_eq hc1.1 (by omega) (by omega)]

/-- The reading loop on lines `ls` and more lines, `extra`, after they have filled the arrays. -/
theorem mmLoop_extra (M : Nat) (conv : Bytes → T) (sym : Bool) {n : Nat} {tail : Bytes} (ht : Blank tail) (extra : List MmLine) :
    ∀ (ls : List MmLine), (∀ l ∈ ls, l.Syntax ∧ l.row < 2 ^ 64 ∧ l.col < 2 ^ 64) →
      ∀ (fuel : Nat) (v : MmVars T) (A : CooA T) (pre : List (Ent T)),
      A.Holds n pre → A.nnz = some n → pre.length + (ls.flatMap (MmLine.raw M conv sym)).length ≤ n →
      (extra = [] ∨ pre.length + (ls.flatMap (MmLine.raw M conv sym)).length = n) → n < fuel + pre.length →
      ∃ A', mmLoop M conv sym n fuel pre.length v (joinLines ((ls ++ extra).map MmLine.text) tail) A = .ok A' ∧
        A'.Holds n (pre ++ ls.flatMap (MmLine.raw M conv sym)) ∧ A'.rows = A.rows ∧ A'.columns = A.columns ∧
        A'.nnz = some (pre.length + (ls.flatMap (MmLine.raw M conv sym)).length) := by
  intro ls
  induction ls with
  | nil =>
    intro _ fuel v A pre hA hz hle hex hfuel
    simp only [List.flatMap_nil, List.length_nil, Nat.add_zero, List.append_nil, List.nil_append] at hle hex ⊢
    cases fuel with
    | zero => omega
    | succ f =>
      rcases hex with rfl | hex
      case inr =>
        unfold mmLoop
        rw [if_neg (by omega)]
        exact ⟨A, rfl, hA, rfl, rfl, by rw [hz]; congr 1; omega⟩
      simp only [List.map_nil, joinLines]
      rw [← mmLoop_skipWs, skipWs_all ht]
      unfold mmLoop
      by_cases hi : pre.length < n
      · rw [if_pos hi, scanEntry_end]
        exact ⟨{ A with nnz := some pre.length }, rfl, ⟨hA.row, hA.col, hA.val, hA.cells⟩, rfl, rfl, rfl⟩
      · rw [if_neg hi]
        exact ⟨A, rfl, hA, rfl, rfl, by rw [hz]; congr 1; omega⟩
  | cons l ls ih =>
    intro hls fuel v A pre hA hz hle hex hfuel
    obtain ⟨hl, hr, hc⟩ := hls l (by simp)
    obtain ⟨rest, hj, hskip, hends⟩ := joinLines_cons l.text ((ls ++ extra).map MmLine.text) ht
    rw [List.cons_append, List.map_cons, hj]
    have hout : l.raw M conv sym = (if sym && l.row != l.col
      then [⟨fromOne M l.row, fromOne M l.col, conv l.val.text⟩, ⟨fromOne M l.col, fromOne M l.row, conv l.val.text⟩]
      else [⟨fromOne M l.row, fromOne M l.col, conv l.val.text⟩]) := rfl
    rw [List.flatMap_cons, List.length_append] at hle hex ⊢
    have hpos : 1 ≤ (l.raw M conv sym).length := by rw [hout]; split <;> simp
    cases fuel with
    | zero => omega
    | succ f =>
      unfold mmLoop
      rw [if_pos (by omega), scanEntry_line conv v hl hr hc hends]
      simp only [ok_bind]
      rw [if_neg (by decide)]
      obtain ⟨A1, hs1, hA1, e1, e2, e3⟩ := hA.setPoint (by omega) ⟨fromOne M l.row, fromOne M l.col, conv l.val.text⟩
      simp only at hs1
      rw [hs1]
      simp only [ok_bind]
      by_cases hm : (sym && l.row != l.col) = true
      · rw [if_pos hm] at hout ⊢
        rw [hout] at hle hex ⊢
        simp only [List.length_cons, List.length_nil] at hle hex ⊢
        obtain ⟨A2, hs2, hA2, e1', e2', e3'⟩ := hA1.setPoint (by simp; omega) ⟨fromOne M l.col, fromOne M l.row, conv l.val.text⟩
        have hs2' : A1.setPoint (pre.length + 1) (fromOne M l.col) (fromOne M l.row) (conv l.val.text) = .ok A2 := by
          simpa using hs2
        rw [hs2']
        simp only [ok_bind]
        obtain ⟨A', h, hH, r1, r2, r3⟩ := ih (fun l h => hls l (by simp [h])) f ⟨some l.row, some l.col, some (conv l.val.text)⟩ A2 _ hA2
          (by rw [e3', e3, hz]) (by simp only [List.length_append, List.length_cons, List.length_nil]; omega)
          (hex.imp_right (fun h => by simp only [List.length_append, List.length_cons, List.length_nil]; omega)) (by simp; omega)
        refine ⟨A', ?_, ?_, by rw [r1, e1', e1], by rw [r2, e2', e2], ?_⟩
        · rw [hskip, mmLoop_skipWs]
          simpa using h
        · simpa using hH
        · rw [r3]; congr 1; simp only [List.length_append, List.length_cons, List.length_nil]; omega
      · rw [if_neg hm] at hout ⊢
        rw [hout] at hle hex ⊢
        simp only [List.length_cons, List.length_nil] at hle hex ⊢
        obtain ⟨A', h, hH, r1, r2, r3⟩ := ih (fun l h => hls l (by simp [h])) f ⟨some l.row, some l.col, some (conv l.val.text)⟩ A1 _ hA1
          (by rw [e3, hz]) (by simp only [List.length_append, List.length_cons, List.length_nil]; omega)
          (hex.imp_right (fun h => by simp only [List.length_append, List.length_cons, List.length_nil]; omega)) (by simp; omega)
        refine ⟨A', ?_, ?_, by rw [r1, e1], by rw [r2, e2], ?_⟩
        · rw [hskip, mmLoop_skipWs]
          simpa using h
        · simpa using hH
        · rw [r3]; congr 1; simp only [List.length_append, List.length_cons, List.length_nil]; omega

theorem mmLoop_spec (M : Nat) (conv : Bytes → T) (sym : Bool) {n : Nat} {tail : Bytes} (ht : Blank tail)
    (ls : List MmLine) (hls : ∀ l ∈ ls, l.Syntax ∧ l.row < 2 ^ 64 ∧ l.col < 2 ^ 64) (fuel : Nat) (v : MmVars T) (A : CooA T)
    (pre : List (Ent T)) (hA : A.Holds n pre) (hz : A.nnz = some n)
    (hle : pre.length + (ls.flatMap (MmLine.raw M conv sym)).length ≤ n) (hfuel : n < fuel + pre.length) :
      ∃ A', mmLoop M conv sym n fuel pre.length v (joinLines (ls.map MmLine.text) tail) A = .ok A' ∧
        A'.Holds n (pre ++ ls.flatMap (MmLine.raw M conv sym)) ∧ A'.rows = A.rows ∧ A'.columns = A.columns ∧
        A'.nnz = some (pre.length + (ls.flatMap (MmLine.raw M conv sym)).length) := by
  have := mmLoop_extra M conv sym ht [] ls hls fuel v A pre hA hz hle (.inl rfl) hfuel
  rwa [List.append_nil] at this

/-- The counting loop looks at the first `n` lines. -/
theorem mmCount_take (conv : Bytes → T) {rows columns : Nat} {tail : Bytes} (ht : Blank tail)
    (hr : rows < 2 ^ 64) (hc : columns < 2 ^ 64) :
    ∀ (ls : List MmLine), (∀ l ∈ ls, l.Ok rows columns) → ∀ (n : Nat) (v : MmVars T) (k : Nat),
      ∃ v', mmCount conv n v k (joinLines (ls.map MmLine.text) tail) =
        .ok (k + ((ls.take n).flatMap (MmLine.out conv true)).length, v') := by
  intro ls
  induction ls with
  | nil =>
    intro _ n v k
    simp only [List.take_nil, List.flatMap_nil, List.length_nil, Nat.add_zero, List.map_nil, joinLines]
    rw [← mmCount_skipWs, skipWs_all ht]
    cases n with
    | zero => exact ⟨v, rfl⟩
    | succ n => exact ⟨v, rfl⟩
  | cons l ls ih =>
    intro hls n v k
    have hl := hls l (by simp)
    obtain ⟨rest, hj, hskip, hends⟩ := joinLines_cons l.text (ls.map MmLine.text) ht
    rw [List.map_cons, hj]
    have hout := out_eq conv true hl.row.1 hl.col.1
    cases n with
    | zero => exact ⟨v, by simp [mmCount]⟩
    | succ n =>
      rw [List.take_succ_cons, List.flatMap_cons, List.length_append]
      unfold mmCount
      rw [scanEntry_line conv v hl.toSyntax (by have := hl.row; omega) (by have := hl.col; omega) hends]
      simp only [ok_bind]
      rw [if_neg (by decide), hskip, mmCount_skipWs]
      obtain ⟨v', h⟩ := ih (fun l h => hls l (by simp [h])) n ⟨some l.row, some l.col, some (conv l.val.text)⟩
        (if l.row = l.col then k + 1 else k + 2)
      refine ⟨v', ?_⟩
      rw [h, hout]
      congr 2
      by_cases hm : l.row = l.col <;> simp [hm] <;> omega

theorem mmCount_spec (conv : Bytes → T) {rows columns : Nat} {tail : Bytes} (ht : Blank tail)
    (hr : rows < 2 ^ 64) (hc : columns < 2 ^ 64) (ls : List MmLine) (hls : ∀ l ∈ ls, l.Ok rows columns) (n : Nat) (v : MmVars T)
    (k : Nat) (hn : ls.length ≤ n) :
      ∃ v', mmCount conv n v k (joinLines (ls.map MmLine.text) tail) =
        .ok (k + (ls.flatMap (MmLine.out conv true)).length, v') := by
  have := mmCount_take conv ht hr hc ls hls n v k
  rwa [List.take_of_length_le hn] at this

/-! ### The head of the file -/

theorem lineSplit_line {t rest : Bytes} : ∀ {k : Nat}, nl ∉ t → t.length < k → lineSplit k (t ++ nl :: rest) = (t ++ [nl], rest) := by
  induction t with
  | nil => intro k _ hk; cases k with
    | zero => simp at hk
    | succ k => simp [lineSplit]
  | cons b t ih =>
    intro k hb hk
    cases k with
    | zero => simp at hk
    | succ k =>
      simp only [List.mem_cons, not_or] at hb
      simp only [List.cons_append, lineSplit, if_neg (Ne.symm hb.1)]
      rw [ih hb.2 (by simpa using hk)]

theorem fgetsLine_line {t rest : Bytes} (h : LineOk t) : fgetsLine (t ++ nl :: rest) = some (t ++ [nl], rest) := by
  unfold fgetsLine
  rw [if_neg (by simp), lineSplit_line h.2.1 (by have := h.1; omega)]

theorem cstr_line {t : Bytes} (h : LineOk t) : cstr (t ++ [nl]) = t ++ [nl] := by
  have : ∀ b ∈ t ++ [nl], (fun b : UInt8 => decide (b ≠ 0)) b = true := ?_
  · have h' := takeWhile_all (t := []) this
    rw [List.append_nil] at h'
    unfold cstr
    rw [h']
    simp
  intro b hb
  simp only [List.mem_append, List.mem_singleton] at hb
  rcases hb with hb | rfl
  · simp only [ne_eq, decide_not, Bool.not_eq_eq_eq_not, Bool.not_true, decide_eq_false_iff_not]
    rintro rfl; exact h.2.2 hb
  · decide

theorem skipComments_spec {line rest : Bytes} (hl : LineOk line) (h37 : (line ++ [nl]).head? ≠ some 37) :
    ∀ (cs : List Bytes), (∀ c ∈ cs, LineOk c ∧ c.head? = some 37) → ∀ fuel, cs.length < fuel →
      skipComments fuel (cs.flatMap (fun c => c ++ [nl]) ++ (line ++ nl :: rest)) = .ok (some (line ++ [nl], rest)) := by
  intro cs
  induction cs with
  | nil =>
    intro _ fuel hf
    cases fuel with
    | zero => simp at hf
    | succ f =>
      simp only [List.flatMap_nil, List.nil_append, skipComments, fgetsLine_line hl]
      rw [if_neg h37]
  | cons c cs ih =>
    intro hcs fuel hf
    cases fuel with
    | zero => simp at hf
    | succ f =>
      obtain ⟨hc, hc37⟩ := hcs c (by simp)
      rw [List.flatMap_cons]
      have : c ++ [nl] ++ cs.flatMap (fun c => c ++ [nl]) ++ (line ++ nl :: rest) =
          c ++ nl :: (cs.flatMap (fun c => c ++ [nl]) ++ (line ++ nl :: rest)) := by simp
      rw [this]
      simp only [skipComments, fgetsLine_line hc]
      rw [if_pos (by cases c with
        | nil => simp at hc37
        | cons b c => simpa using hc37)]
      exact ih (fun c h => hcs c (by simp [h])) f (by simpa using hf)

theorem scanD_text {a t rest : Bytes} {z : Int} (ha : Blank a) (h : IntText t z) (hr : Stop isDigit rest) :
    scanD (a ++ (t ++ rest)) = .ok (.got z rest) := by
  rcases h with ⟨n, h1, h2, rfl⟩ | ⟨d, n, rfl, h1, h2, rfl⟩
  · exact scanD_numeral ha h1 h2 hr
  · rw [List.cons_append]
    simp only [scanD, scanInt_neg ha h1 hr, if_pos h2]
    rfl

theorem scanThreeD_text (v : Int × Int × Int) {s0 s1 s2 t0 t1 t2 rest : Bytes} {z0 z1 z2 : Int}
    (h0 : Blank s0) (h1 : Blank s1 ∧ s1 ≠ []) (h2 : Blank s2 ∧ s2 ≠ []) (i0 : IntText t0 z0) (i1 : IntText t1 z1)
    (i2 : IntText t2 z2) (hr : Stop isDigit rest) :
    scanThreeD v (s0 ++ (t0 ++ (s1 ++ (t1 ++ (s2 ++ (t2 ++ rest)))))) = .ok (3, (z0, z1, z2), rest) := by
  unfold scanThreeD
  rw [scanD_text h0 i0 (stop_digit_of_blank h1.1 h1.2)]
  simp only [ok_bind]
  rw [scanD_text h1.1 i1 (stop_digit_of_blank h2.1 h2.2)]
  simp only [ok_bind]
  rw [scanD_text h2.1 i2 hr]
  rfl

theorem scanThreeD_blank (v : Int × Int × Int) {s : Bytes} (h : Blank s) : scanThreeD v s = .ok (-1, v, []) := by
  have : scanD s = .ok .eof := by unfold scanD scanInt; rw [skipWs_all h]
  unfold scanThreeD
  rw [this]
  rfl

/-! ### The words of the banner -/

theorem splitOnP_ne_nil (s : Bytes) : s.splitOnP isBlank ≠ [] := List.splitOnP_ne_nil _ _

theorem splitOnP_append_nl (s : Bytes) : (s ++ [nl]).splitOnP isBlank = s.splitOnP isBlank ++ [[]] := by
  induction s with
  | nil => decide
  | cons b s ih =>
    rw [List.cons_append, List.splitOnP_cons_eq_if_modifyHead, List.splitOnP_cons_eq_if_modifyHead, ih]
    by_cases hb : isBlank b = true
    · simp [hb]
    · simp only [hb]
      cases h : s.splitOnP isBlank with
      | nil => exact absurd h (splitOnP_ne_nil s)
      | cons x xs => simp

theorem fields_append_nl (s : Bytes) : fields (s ++ [nl]) = fields s := by
  unfold fields
  rw [splitOnP_append_nl, List.filter_append]
  simp

theorem fields_blank {b : UInt8} {s : Bytes} (hb : isBlank b = true) : fields (b :: s) = fields s := by
  unfold fields
  rw [List.splitOnP_cons_eq_if_modifyHead, if_pos hb]
  simp

theorem splitOnP_word (s : Bytes) : s.splitOnP isBlank =
    s.takeWhile (fun b => !isBlank b) :: (match s.dropWhile (fun b => !isBlank b) with | [] => [] | _ :: t => t.splitOnP isBlank) := by
  induction s with
  | nil => decide
  | cons b s ih =>
    rw [List.splitOnP_cons_eq_if_modifyHead]
    by_cases hb : isBlank b = true
    · simp [hb]
    · rw [if_neg hb, ih]
      simp [hb]

theorem fields_word {b : UInt8} {s : Bytes} (hb : isBlank b = false) :
    fields (b :: s) = (b :: s).takeWhile (fun b => !isBlank b) :: fields ((b :: s).dropWhile (fun b => !isBlank b)) := by
  have hw := splitOnP_word (b :: s)
  unfold fields
  rw [hw, List.filter_cons_of_pos (by simp [hb])]
  congr 1
  cases h : (b :: s).dropWhile (fun b => !isBlank b) with
  | nil => decide
  | cons c t =>
    have hc : isBlank c = true := by
      have := dropWhile_head h
      simpa using this
    have := fields_blank (s := t) hc
    unfold fields at this
    exact this.symm

theorem fields_skipWs (s : Bytes) : fields (skipWs s) = fields s := by
  induction s with
  | nil => rfl
  | cons b s ih =>
    unfold skipWs
    by_cases hb : isBlank b = true
    · rw [List.dropWhile_cons_of_pos hb, fields_blank hb]; exact ih
    · rw [List.dropWhile_cons_of_neg hb]

theorem scanWords_fields (n : Nat) : ∀ (s : Bytes), (∀ w ∈ (fields s).take n, w.length < 64) →
    scanWords n s = .ok ((fields s).take n) := by
  induction n with
  | zero => intro s _; simp [scanWords]
  | succ n ih =>
    intro s hs
    unfold scanWords
    rw [← fields_skipWs s] at hs ⊢
    cases h : skipWs s with
    | nil => rfl
    | cons b t =>
      have hb : isBlank b = false := dropWhile_head h
      rw [h, fields_word hb, List.take_succ_cons] at hs
      rw [fields_word hb, List.take_succ_cons]
      simp only
      rw [if_pos (hs _ (by simp)), ih _ (fun w hw => hs w (by simp [hw]))]
      rfl

end Gsb

namespace Gsb
variable {T : Type}

/-! ### The whole head -/

/-- The code the banner reader gives to a value type and a symmetry. -/
def fieldCode (f : Bytes) : UInt8 :=
  if f = chars "real" then 82 else if f = chars "complex" then 67 else if f = chars "pattern" then 80 else 73

/-- See `fieldCode`. -/
def symCode (s : Bytes) : UInt8 :=
  if s = chars "general" then 71 else if s = chars "symmetric" then 83 else if s = chars "hermitian" then 72 else 75

/-- The fields of a banner the reader takes. -/
structure BannerOk (banner field symmetry : Bytes) : Prop where
  line : LineOk banner
  words : ∃ a b c d, fields banner = [chars "%%MatrixMarket", a, b, c, d] ∧
    a.map lowerByte = chars "matrix" ∧ b.map lowerByte = chars "coordinate" ∧
    c.map lowerByte = field ∧ d.map lowerByte = symmetry
  field : field = chars "real" ∨ field = chars "integer" ∨ field = chars "pattern"
  symmetry : symmetry = chars "general" ∨ symmetry = chars "symmetric" ∨ symmetry = chars "skew-symmetric" ∨
    symmetry = chars "hermitian"

theorem bannerWords_ok {field symmetry : Bytes}
    (hf : field = chars "real" ∨ field = chars "integer" ∨ field = chars "pattern")
    (hs : symmetry = chars "general" ∨ symmetry = chars "symmetric" ∨ symmetry = chars "skew-symmetric" ∨
      symmetry = chars "hermitian") :
    bannerWords (chars "%%MatrixMarket") (chars "matrix") (chars "coordinate") field symmetry =
      (0, ⟨77, 67, fieldCode field, symCode symmetry⟩) := by
  rcases hf with rfl | rfl | rfl <;> rcases hs with rfl | rfl | rfl | rfl <;> decide +kernel

theorem mmReadBanner_ok {banner field symmetry rest : Bytes} (h : BannerOk banner field symmetry) :
    mmReadBanner (banner ++ nl :: rest) = .ok (0, ⟨77, 67, fieldCode field, symCode symmetry⟩, rest) := by
  obtain ⟨hl, ⟨a, b, c, d, hw, ha, hb, hc, hd⟩, hf, hs⟩ := h
  unfold mmReadBanner
  rw [fgetsLine_line hl]
  simp only
  rw [cstr_line hl]
  have hwords : scanWords 5 (banner ++ [nl]) = .ok [chars "%%MatrixMarket", a, b, c, d] := by
    rw [scanWords_fields, fields_append_nl, hw]
    · rfl
    · rw [fields_append_nl, hw]
      have la : a.length = 6 := by have := congrArg List.length ha; rw [List.length_map] at this; exact this
      have lb : b.length = 10 := by have := congrArg List.length hb; rw [List.length_map] at this; exact this
      have lc : c.length < 64 := by
        have := congrArg List.length hc; rw [List.length_map] at this
        rw [this]; rcases hf with rfl | rfl | rfl <;> decide
      have ld : d.length < 64 := by
        have := congrArg List.length hd; rw [List.length_map] at this
        rw [this]; rcases hs with rfl | rfl | rfl | rfl <;> decide
      intro w hm
      simp only [List.take_succ_cons, List.take_zero, List.mem_cons, List.not_mem_nil, or_false] at hm
      rcases hm with rfl | rfl | rfl | rfl | rfl
      · decide
      · omega
      · omega
      · exact lc
      · exact ld
  rw [hwords]
  simp only [ok_bind, ha, hb, hc, hd, bannerWords_ok hf hs]

/-- `sscanf` of the line does not find three numbers. -/
def NotThree (l0 : Bytes) : Prop := ∃ r, scanThreeD (0, 0, 0) (l0 ++ [nl]) = .ok r ∧ r.1 ≠ 3

theorem notThree_blank {l0 : Bytes} (h : Blank l0) : NotThree l0 := by
  refine ⟨_, scanThreeD_blank _ ?_, by decide⟩
  intro b hb
  rw [List.mem_append] at hb
  rcases hb with hb | hb
  · exact h b hb
  · simp at hb; subst hb; decide

/-- The parts of a size line. -/
structure SizeOk (lead s0 t0 s1 t1 s2 t2 s3 : Bytes) (z0 z1 z2 : Int) : Prop where
  /-- nothing before it, or a line without three numbers and white space -/
  lead : (lead = [] ∧ LineOk (s0 ++ t0 ++ s1 ++ t1 ++ s2 ++ t2 ++ s3)) ∨
    ∃ l0 l1, lead = l0 ++ nl :: l1 ∧ LineOk l0 ∧ (l0 ++ [nl]).head? ≠ some 37 ∧ NotThree l0 ∧ Blank l1
  s0 : Blank s0
  s1 : Blank s1 ∧ s1 ≠ []
  s2 : Blank s2 ∧ s2 ≠ []
  s3 : Blank s3
  t0 : IntText t0 z0
  t1 : IntText t1 z1
  t2 : IntText t2 z2

theorem IntText.head {t : Bytes} {z : Int} (h : IntText t z) : ∃ b u, t = b :: u ∧ b ≠ 37 := by
  rcases h with ⟨n, hn, -, -⟩ | ⟨d, n, rfl, -⟩
  · rcases hn.cases with ⟨hne, hd, -⟩ | ⟨d, rfl, -⟩
    case inr => exact ⟨43, d, rfl, by decide⟩
    cases t with
    | nil => exact absurd rfl hne
    | cons b u =>
      refine ⟨b, u, rfl, ?_⟩
      rintro rfl
      have := hd 37 (by simp)
      revert this; decide
  · exact ⟨45, d, rfl, by decide⟩

theorem blank_head {a t : Bytes} (ha : Blank a) (ht : t.head? ≠ some 37) : (a ++ t).head? ≠ some 37 := by
  cases a with
  | nil => exact ht
  | cons b a =>
    intro h
    simp only [List.cons_append, List.head?_cons, Option.some.injEq] at h
    subst h
    have := ha 37 (by simp)
    revert this; decide

theorem mmReadSize_ok {cs : List Bytes} (hcs : ∀ c ∈ cs, LineOk c ∧ c.head? = some 37)
    {lead s0 t0 s1 t1 s2 t2 s3 : Bytes} {z0 z1 z2 : Int} (h : SizeOk lead s0 t0 s1 t1 s2 t2 s3 z0 z1 z2)
    {fuel : Nat} (hfuel : 0 < fuel) (body : Bytes) :
    ∃ rest, mmReadSize fuel (cs.flatMap (fun c => c ++ [nl]) ++
        (lead ++ ((s0 ++ t0 ++ s1 ++ t1 ++ s2 ++ t2 ++ s3) ++ nl :: body))) = .ok (0, (z0, z1, z2), rest) ∧
      skipWs rest = skipWs body := by
  have hlen : ∀ t : Bytes, cs.length < (cs.flatMap (fun c => c ++ [nl]) ++ t).length + 1 := by
    intro t
    have : cs.length ≤ (cs.flatMap (fun c => c ++ [nl])).length := by
      clear hcs
      induction cs with
      | nil => simp
      | cons c cs ih => rw [List.flatMap_cons, List.length_append]; simp only [List.length_cons, List.length_append, List.length_nil]; omega
    rw [List.length_append]; omega
  have hthree : ∀ (v : Int × Int × Int) (a r : Bytes), Blank a →
      scanThreeD v (a ++ ((s0 ++ t0 ++ s1 ++ t1 ++ s2 ++ t2 ++ s3) ++ nl :: r)) = .ok (3, (z0, z1, z2), s3 ++ nl :: r) := by
    intro v a r ha
    have := scanThreeD_text v (s0 := a ++ s0) (rest := s3 ++ nl :: r) (by
      intro b hb; rw [List.mem_append] at hb; rcases hb with hb | hb; exact ha b hb; exact h.s0 b hb)
      h.s1 h.s2 h.t0 h.t1 h.t2 (by
        have := stop_digit_of_blank (a := s3 ++ [nl]) (t := r) (by
          intro b hb; rw [List.mem_append] at hb
          rcases hb with hb | hb
          · exact h.s3 b hb
          · simp at hb; subst hb; decide) (by simp)
        simpa using this)
    simpa using this
  unfold mmReadSize
  rcases h.lead with ⟨rfl, hline⟩ | ⟨l0, l1, rfl, hl0, hb0, ⟨r, hnot, h3⟩, hb1⟩
  · rw [List.nil_append, skipComments_spec hline ?_ cs hcs _ (hlen _)]
    · simp only [ok_bind]
      rw [cstr_line hline]
      have := hthree (0, 0, 0) [] [] (by intro b hb; cases hb)
      rw [List.nil_append] at this
      rw [this]
      simp only [ok_bind]
      exact ⟨body, if_pos trivial, rfl⟩
    · obtain ⟨b, u, hb, hne⟩ := h.t0.head
      have : s0 ++ t0 ++ s1 ++ t1 ++ s2 ++ t2 ++ s3 ++ [nl] = s0 ++ (t0 ++ (s1 ++ t1 ++ s2 ++ t2 ++ s3 ++ [nl])) := by simp
      rw [this]
      refine blank_head h.s0 ?_
      rw [hb]; simpa using hne
  · have e : l0 ++ nl :: l1 ++ (s0 ++ t0 ++ s1 ++ t1 ++ s2 ++ t2 ++ s3 ++ nl :: body) =
        l0 ++ nl :: (l1 ++ (s0 ++ t0 ++ s1 ++ t1 ++ s2 ++ t2 ++ s3 ++ nl :: body)) := by simp
    rw [e, skipComments_spec hl0 hb0 cs hcs _ (hlen _)]
    simp only [ok_bind]
    rw [cstr_line hl0, hnot]
    simp only [ok_bind]
    rw [if_neg h3]
    cases fuel with
    | zero => omega
    | succ f =>
      unfold sizeLoop
      rw [hthree _ _ _ hb1]
      simp only [ok_bind]
      refine ⟨s3 ++ nl :: body, rfl, ?_⟩
      rw [skipWs_blank _ h.s3]
      exact skipWs_blank (a := [nl]) _ (by intro b hb; simp at hb; subst hb; decide)

/-! ### Conversions -/

theorem toIdx_nat {M n : Nat} (h : n < M) : toIdx M (n : Int) = n := by
  unfold toIdx
  rw [← Int.natCast_mod, Int.toNat_natCast, Nat.mod_eq_of_lt h]

theorem toInt32_nat {n : Nat} (h : n < 2 ^ 31) : toInt32 n = (n : Int) := by
  unfold toInt32
  have : n % 2 ^ 32 = n := Nat.mod_eq_of_lt (by omega)
  rw [this, if_pos h]

theorem mmEntries_skipWs (M : Nat) (conv : Bytes → T) (sym : Bool) (nr nc nnz : Int) (v : MmVars T) (s : Bytes) :
    mmEntries M conv sym nr nc nnz v (skipWs s) = mmEntries M conv sym nr nc nnz v s := mmLoop_skipWs ..

theorem holds_uninit (n : Nat) (r c z : Option Nat) :
    (⟨Buf.uninit n, Buf.uninit n, Buf.uninit n, r, c, z⟩ : CooA T).Holds n [] :=
  ⟨rfl, rfl, rfl, fun k h => by simp at h⟩

theorem mmEntries_raw (M : Nat) (conv : Bytes → T) (sym : Bool) {nr nc nnz : Int} {tail : Bytes}
    (ht : Blank tail) (ls : List MmLine) (hls : ∀ l ∈ ls, l.Syntax ∧ l.row < 2 ^ 64 ∧ l.col < 2 ^ 64) (v : MmVars T)
    (hle : (ls.flatMap (MmLine.raw M conv sym)).length ≤ toIdx M nnz) :
    ∃ A, mmEntries M conv sym nr nc nnz v (joinLines (ls.map MmLine.text) tail) = .ok A ∧
      A.ents = .ok (ls.flatMap (MmLine.raw M conv sym)) ∧ A.rows = some (toIdx M nr) ∧ A.columns = some (toIdx M nc) ∧
      A.nnz = some (ls.flatMap (MmLine.raw M conv sym)).length := by
  obtain ⟨A, h1, h2, h3, h4, h5⟩ := mmLoop_spec M conv sym (n := toIdx M nnz) ht ls hls (toIdx M nnz + 1) v
    ⟨Buf.uninit (toIdx M nnz), Buf.uninit (toIdx M nnz), Buf.uninit (toIdx M nnz), some (toIdx M nr), some (toIdx M nc),
      some (toIdx M nnz)⟩ [] (holds_uninit ..) rfl (by simpa using hle) (by simp)
  refine ⟨A, h1, ?_, h3, h4, by simpa using h5⟩
  rw [List.nil_append] at h2
  exact h2.ents hle (by simpa using h5)

theorem mmEntries_full (M : Nat) (conv : Bytes → T) (sym : Bool) {nr nc nnz : Int} {tail : Bytes}
    (ht : Blank tail) (ls extra : List MmLine) (hls : ∀ l ∈ ls, l.Syntax ∧ l.row < 2 ^ 64 ∧ l.col < 2 ^ 64) (v : MmVars T)
    (hle : (ls.flatMap (MmLine.raw M conv sym)).length = toIdx M nnz) :
    ∃ A, mmEntries M conv sym nr nc nnz v (joinLines ((ls ++ extra).map MmLine.text) tail) = .ok A ∧
      A.ents = .ok (ls.flatMap (MmLine.raw M conv sym)) ∧ A.rows = some (toIdx M nr) ∧ A.columns = some (toIdx M nc) := by
  obtain ⟨A, h1, h2, h3, h4, h5⟩ := mmLoop_extra M conv sym (n := toIdx M nnz) ht extra ls hls (toIdx M nnz + 1) v
    ⟨Buf.uninit (toIdx M nnz), Buf.uninit (toIdx M nnz), Buf.uninit (toIdx M nnz), some (toIdx M nr), some (toIdx M nc),
      some (toIdx M nnz)⟩ [] (holds_uninit ..) rfl (by simpa using Nat.le_of_eq hle) (.inr (by simpa using hle)) (by simp)
  refine ⟨A, h1, ?_, h3, h4⟩
  rw [List.nil_append] at h2
  exact h2.ents (Nat.le_of_eq hle) (by simpa using h5)

theorem mmEntries_spec (M : Nat) (conv : Bytes → T) (sym : Bool) {rows columns : Nat} {nr nc nnz : Int} {tail : Bytes}
    (ht : Blank tail) (hr : rows < 2 ^ 64) (hc : columns < 2 ^ 64) (hrM : rows ≤ M) (hcM : columns ≤ M)
    (ls : List MmLine) (hls : ∀ l ∈ ls, l.Ok rows columns) (v : MmVars T)
    (hle : (ls.flatMap (MmLine.out conv sym)).length ≤ toIdx M nnz) :
    ∃ A, mmEntries M conv sym nr nc nnz v (joinLines (ls.map MmLine.text) tail) = .ok A ∧
      A.ents = .ok (ls.flatMap (MmLine.out conv sym)) ∧ A.rows = some (toIdx M nr) ∧ A.columns = some (toIdx M nc) ∧
      A.nnz = some (ls.flatMap (MmLine.out conv sym)).length := by
  have e : ls.flatMap (MmLine.raw M conv sym) = ls.flatMap (MmLine.out conv sym) :=
    List.flatMap_congr (fun l hl => raw_eq_out conv sym (hls l hl) hr hc hrM hcM)
  rw [← e] at hle ⊢
  exact mmEntries_raw M conv sym ht ls (fun l hl => ⟨(hls l hl).toSyntax, by have := (hls l hl).row; omega, by have := (hls l hl).col; omega⟩) v hle

/-- The loop over comments ends. -/
theorem skipComments_total : ∀ (fuel : Nat) (s : Bytes), s.length < fuel → skipComments fuel s ≠ .error .budget := by
  have hlen : ∀ (k : Nat) (s : Bytes), (lineSplit k s).1.length + (lineSplit k s).2.length = s.length := by
    intro k
    induction k with
    | zero => intro s; simp [lineSplit]
    | succ k ih =>
      intro s
      cases s with
      | nil => rfl
      | cons b s =>
        unfold lineSplit
        split
        · simp; omega
        · have := ih s
          simp only [List.length_cons]; omega
  have hne : ∀ (k : Nat) (b : UInt8) (s : Bytes), 0 < (lineSplit (k + 1) (b :: s)).1.length := by
    intro k b s; unfold lineSplit; split <;> simp
  intro fuel
  induction fuel with
  | zero => intro s h; omega
  | succ fuel ih =>
    intro s h
    unfold skipComments fgetsLine
    cases s with
    | nil => intro h; cases h
    | cons b s =>
      rw [if_neg (by simp)]
      simp only
      split
      · have h1 := hlen 1024 (b :: s)
        have h2 : 0 < (lineSplit 1024 (b :: s)).1.length := hne 1023 b s
        exact ih _ (by simp only [List.length_cons] at h1 h ⊢; omega)
      · intro h; cases h

end Gsb
