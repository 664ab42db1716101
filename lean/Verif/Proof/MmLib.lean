import Verif.Model.MmLib
import Verif.Proof.IoMm
import Verif.Props.IoMm2
/-
Proofs about the bundled Matrix Market library: lines, the reading loop, the writing loop.
-/
namespace Gsb
variable {T : Type}

/-- An array of `n` elements of which the first ones are set. -/
def pref {α : Type} (n : Nat) (l : List α) : Buf α := ⟨n, fun k => l[k]?⟩

theorem pref_nil {α : Type} (n : Nat) : pref n ([] : List α) = Buf.uninit n :=
  Buf.ext' rfl (fun i => by simp [pref, Buf.uninit])

theorem pref_full {α : Type} {n : Nat} (l : List α) (h : l.length = n) : pref n l = Buf.ofList l :=
  Buf.ext' h.symm (fun _ => rfl)

theorem pref_put {α : Type} {n : Nat} (l : List α) (a : α) (h : l.length < n) :
    (pref n l).put l.length a = .ok (pref n (l ++ [a])) := by
  rw [Buf.put_ok (by simpa [pref] using h)]
  congr 1
  refine Buf.ext' rfl (fun i => ?_)
  show (if i = l.length then some a else l[i]?) = (l ++ [a])[i]?
  split
  · rename_i e; subst e; simp
  · rename_i e
    rcases Nat.lt_or_gt_of_ne e with h | h
    · rw [List.getElem?_append_left h]
    · rw [List.getElem?_eq_none (by omega), List.getElem?_eq_none (by simp; omega)]

theorem pref_last {α : Type} {n : Nat} (l : List α) (a : α) (h : l.length < n) :
    (pref n (l ++ [a])).get l.length = .ok a := by
  refine Buf.get_ok (by simpa [pref] using h) ?_
  show (l ++ [a])[l.length]? = some a
  simp

theorem pref_unset {α : Type} {n : Nat} (l : List α) (h : l.length < n) :
    (pref n l).get l.length = .error .uninit := by
  unfold Buf.get
  rw [if_pos (by simpa [pref] using h)]
  simp [pref]

theorem pref_reput {α : Type} {n : Nat} (l : List α) (a b : α) (h : l.length < n) :
    (pref n (l ++ [a])).put l.length b = .ok (pref n (l ++ [b])) := by
  rw [Buf.put_ok (by simpa [pref] using h)]
  congr 1
  refine Buf.ext' rfl (fun i => ?_)
  show (if i = l.length then some b else (l ++ [a])[i]?) = (l ++ [b])[i]?
  split
  · rename_i e; subst e; simp
  · rename_i e
    rcases Nat.lt_or_gt_of_ne e with h | h
    · rw [List.getElem?_append_left h, List.getElem?_append_left h]
    · rw [List.getElem?_eq_none (by simp; omega), List.getElem?_eq_none (by simp; omega)]

/-! ### Conversions -/

theorem scanD_skipWs (s : Bytes) : scanD (skipWs s) = scanD s := by
  unfold scanD; rw [scanInt_skipWs]

theorem scanD_blank {s : Bytes} (h : Blank s) : scanD s = .ok .eof := by
  unfold scanD scanInt; rw [skipWs_all h]

theorem scanInto_skipWs (conv : Bytes → T) (i : Nat) (sls : List Slot) (k : Int) (A : CrdA T) (s : Bytes) :
    scanInto conv (.I i :: sls) k A (skipWs s) = scanInto conv (.I i :: sls) k A s := by
  simp only [scanInto, scanSlot, scanD_skipWs]

theorem scanInto_blank (conv : Bytes → T) (i : Nat) (sls : List Slot) (A : CrdA T) {s : Bytes} (h : Blank s) :
    scanInto conv (.I i :: sls) 0 A s = .ok (-1, A, []) := by
  simp only [scanInto, scanSlot, scanD_blank h, ok_bind]
  rfl

/-- The slots of `k` values from `base` on. -/
def vSlots : Nat → Nat → List Slot
  | _, 0 => []
  | base, k + 1 => .V base :: vSlots (base + 1) k

/-- What a line's values are converted to. -/
def CrdLine.values (conv : Bytes → T) (l : CrdLine) : List T := l.vals.map (fun p => conv p.2.text)

theorem endsNumber_vals (vals : List (Bytes × DecText)) (h : ∀ p ∈ vals, (Blank p.1 ∧ p.1 ≠ []) ∧ p.2.Ok) {rest : Bytes}
    (hr : EndsNumber rest) : EndsNumber (vals.flatMap (fun p => p.1 ++ p.2.text) ++ rest) := by
  cases vals with
  | nil => simpa using hr
  | cons p vals =>
    obtain ⟨⟨hb, hne⟩, -⟩ := h p (by simp)
    rw [List.flatMap_cons, List.append_assoc, List.append_assoc]
    cases hp : p.1 with
    | nil => exact absurd hp hne
    | cons b bs =>
      have := endsNumber_blank (a := p.1) (t := []) hb endsNumber_nil
      rw [List.append_nil, hp] at this
      intro c hc
      exact this c (by simpa using hc)

theorem scanInto_vals (conv : Bytes → T) {n m : Nat} (ri ci : List Int) {rest : Bytes} (hr : EndsNumber rest) :
    ∀ (vals : List (Bytes × DecText)), (∀ p ∈ vals, (Blank p.1 ∧ p.1 ≠ []) ∧ p.2.Ok) → ∀ (vs : List T) (c : Int),
      vs.length + vals.length ≤ m →
      scanInto conv (vSlots vs.length vals.length) c ⟨pref n ri, pref n ci, pref m vs⟩
          (vals.flatMap (fun p => p.1 ++ p.2.text) ++ rest) =
        .ok (c + vals.length, ⟨pref n ri, pref n ci, pref m (vs ++ vals.map (fun p => conv p.2.text))⟩, rest) := by
  intro vals
  induction vals with
  | nil => intro _ vs c _; simp [vSlots, scanInto]
  | cons p vals ih =>
    intro h vs c hm
    obtain ⟨⟨hb, hne⟩, hok⟩ := h p (by simp)
    have hvals := fun q hq => h q (List.mem_cons_of_mem _ hq)
    rw [List.length_cons] at hm
    simp only [List.length_cons, vSlots, scanInto, scanSlot, List.flatMap_cons]
    have e : p.1 ++ p.2.text ++ vals.flatMap (fun p => p.1 ++ p.2.text) ++ rest =
        p.1 ++ (p.2.text ++ (vals.flatMap (fun p => p.1 ++ p.2.text) ++ rest)) := by simp
    rw [e, scanLg_text conv hb hok (endsNumber_vals vals hvals hr)]
    simp only [ok_bind]
    rw [pref_put _ _ (by omega)]
    simp only [ok_bind]
    have := ih hvals (vs ++ [conv p.2.text]) (c + 1) (by simp; omega)
    rw [List.length_append, List.length_singleton] at this
    rw [this]
    simp only [List.map_cons, List.append_assoc, List.singleton_append]
    congr 2
    push_cast
    ring

/-- One line. -/
theorem scanInto_line (conv : Bytes → T) {n m k : Nat} (ri ci : List Int) (vs : List T) {l : CrdLine} (hl : l.Ok k)
    {rest : Bytes} (hr : EndsNumber rest) (hri : ri.length < n) (hci : ci.length = ri.length) (hvs : vs.length + k ≤ m) :
    scanInto conv (.I ri.length :: .J ri.length :: vSlots vs.length k) 0 ⟨pref n ri, pref n ci, pref m vs⟩ (l.text ++ rest) =
      .ok (2 + (k : Int), ⟨pref n (ri ++ [l.row]), pref n (ci ++ [l.col]), pref m (vs ++ l.values conv)⟩, l.b3 ++ rest) := by
  have hr' : EndsNumber (l.b3 ++ rest) := endsNumber_blank hl.b3 hr
  have e : l.text ++ rest = l.b0 ++ (l.rowText ++ (l.b1 ++ (l.colText ++
      (l.vals.flatMap (fun p => p.1 ++ p.2.text) ++ (l.b3 ++ rest))))) := by simp [CrdLine.text]
  rw [e]
  simp only [scanInto, scanSlot]
  rw [scanD_text hl.b0 hl.rowText (stop_digit_of_blank hl.b1.1 hl.b1.2)]
  simp only [ok_bind]
  rw [pref_put _ _ hri]
  simp only [ok_bind]
  rw [scanD_text hl.b1.1 hl.colText (endsNumber_vals _ hl.vals hr').stop]
  simp only [ok_bind]
  rw [← hci, pref_put _ _ (by omega)]
  simp only [ok_bind]
  have := scanInto_vals conv (n := n) (m := m) (ri ++ [l.row]) (ci ++ [l.col]) hr' l.vals hl.vals vs (0 + 1 + 1)
    (by rw [hl.count]; exact hvs)
  rw [hl.count] at this
  rw [this]
  rfl

/-- What the loop needs to know about one call of `fscanf`. -/
structure LineScan (conv : Bytes → T) (scan : Nat → CrdA T → Bytes → C (Int × CrdA T × Bytes)) (want : Int) (k : Nat) : Prop where
  skip : ∀ i A s, scan i A (skipWs s) = scan i A s
  blank : ∀ i A s, Blank s → scan i A s = .ok (-1, A, [])
  notEof : want ≠ -1
  line : ∀ (n m : Nat) (ri ci : List Int) (vs : List T) (l : CrdLine) (rest : Bytes), l.Ok k → EndsNumber rest →
    ri.length < n → ci.length = ri.length → vs.length = k * ri.length → vs.length + k ≤ m →
    ∃ s, scan ri.length ⟨pref n ri, pref n ci, pref m vs⟩ (l.text ++ rest) =
      .ok (want, ⟨pref n (ri ++ [l.row]), pref n (ci ++ [l.col]), pref m (vs ++ l.values conv)⟩, s) ∧ skipWs s = skipWs rest

theorem lineScan_complex (conv : Bytes → T) : LineScan conv (scanComplex conv) 4 2 where
  skip := fun _ _ _ => scanInto_skipWs ..
  blank := fun _ _ _ h => scanInto_blank _ _ _ _ h
  notEof := by decide
  line := by
    intro n m ri ci vs l rest hl hr h1 h2 h3 h4
    refine ⟨l.b3 ++ rest, ?_, skipWs_blank _ hl.b3⟩
    have := scanInto_line conv (n := n) (m := m) ri ci vs hl hr h1 h2 h4
    rw [h3] at this
    exact this

theorem lineScan_real (conv : Bytes → T) : LineScan conv (scanReal conv) 3 1 where
  skip := by intro i A s; unfold scanReal; rw [scanInto_skipWs]
  blank := by intro i A s h; unfold scanReal; rw [scanInto_blank _ _ _ _ h]; rfl
  notEof := by decide
  line := by
    intro n m ri ci vs l rest hl hr h1 h2 h3 h4
    refine ⟨skipWs (l.b3 ++ rest), ?_, by rw [skipWs_skipWs, skipWs_blank _ hl.b3]⟩
    have := scanInto_line conv (n := n) (m := m) ri ci vs hl hr h1 h2 h4
    rw [h3, Nat.one_mul] at this
    unfold scanReal
    rw [show [Slot.I ri.length, .J ri.length, .V ri.length] = .I ri.length :: .J ri.length :: vSlots ri.length 1 from rfl, this]
    rfl

theorem lineScan_pattern (conv : Bytes → T) : LineScan conv (scanPattern conv) 2 0 where
  skip := fun _ _ _ => scanInto_skipWs ..
  blank := fun _ _ _ h => scanInto_blank _ _ _ _ h
  notEof := by decide
  line := by
    intro n m ri ci vs l rest hl hr h1 h2 h3 h4
    refine ⟨l.b3 ++ rest, ?_, skipWs_blank _ hl.b3⟩
    have := scanInto_line conv (n := n) (m := m) ri ci vs hl hr h1 h2 h4
    exact this

/-- The reading loop: the lines that are there; 12 if there are fewer than wanted. -/
theorem crdLoop_spec {conv : Bytes → T} {scan : Nat → CrdA T → Bytes → C (Int × CrdA T × Bytes)} {want : Int} {k : Nat}
    (hscan : LineScan conv scan want k) {n m : Nat} {tail : Bytes} (ht : Blank tail) :
    ∀ (ls : List CrdLine), (∀ l ∈ ls, l.Ok k) → ∀ (left : Nat) (ri ci : List Int) (vs : List T) (s : Bytes),
      skipWs s = skipWs (joinLines (ls.map CrdLine.text) tail) → ls.length ≤ left → ri.length + left = n →
      ci.length = ri.length → vs.length = k * ri.length → k * n ≤ m →
      ∃ s', crdLoop scan want left ri.length ⟨pref n ri, pref n ci, pref m vs⟩ s =
        .ok (if ls.length = left then 0 else 12, ⟨pref n (ri ++ ls.map CrdLine.row), pref n (ci ++ ls.map CrdLine.col),
          pref m (vs ++ ls.flatMap (CrdLine.values conv))⟩, s') := by
  intro ls
  induction ls with
  | nil =>
    intro _ left ri ci vs s hs hle hn hci hvs hm
    simp only [List.map_nil, List.flatMap_nil, List.append_nil]
    cases left with
    | zero => exact ⟨s, rfl⟩
    | succ left =>
      refine ⟨[], ?_⟩
      have hb : skipWs s = [] := by rw [hs]; exact skipWs_all ht
      simp only [crdLoop]
      rw [← hscan.skip, hb, hscan.blank _ _ _ (by intro b hb; cases hb)]
      simp only [ok_bind]
      rw [if_pos (Ne.symm hscan.notEof)]
      simp
  | cons l ls ih =>
    intro hls left ri ci vs s hs hle hn hci hvs hm
    cases left with
    | zero => simp at hle
    | succ left =>
      rw [List.length_cons] at hle
      rw [List.map_cons] at hs
      obtain ⟨rest, e, hrest, hends⟩ := joinLines_cons l.text (ls.map CrdLine.text) ht
      rw [e] at hs
      have hkm : vs.length + k ≤ m := by
        have : k * (ri.length + 1) ≤ k * n := Nat.mul_le_mul_left _ (by omega)
        rw [Nat.mul_add, Nat.mul_one] at this
        omega
      obtain ⟨s1, h1, h2⟩ := hscan.line n m ri ci vs l rest (hls l (by simp)) hends (by omega) hci hvs hkm
      have hlok := hls l (by simp)
      obtain ⟨s', h3⟩ := ih (fun l h => hls l (by simp [h])) left (ri ++ [l.row]) (ci ++ [l.col]) (vs ++ l.values conv) s1
        (by rw [h2, hrest]) (by omega) (by rw [List.length_append, List.length_singleton]; omega)
        (by simp [hci]) (by
          rw [List.length_append, List.length_append, List.length_singleton, hvs, Nat.mul_add, Nat.mul_one]
          unfold CrdLine.values
          rw [List.length_map, hlok.count]) hm
      refine ⟨s', ?_⟩
      simp only [crdLoop]
      rw [← hscan.skip, hs, hscan.skip, h1]
      simp only [ok_bind]
      rw [if_neg (by simp)]
      rw [List.length_append, List.length_singleton] at h3
      rw [h3]
      simp [List.append_assoc]

/-! ### The banner -/

theorem mmReadBanner_words {banner rest w0 a b c d : Bytes} (hl : LineOk banner) (hw : fields banner = [w0, a, b, c, d])
    (h64 : ∀ w ∈ [w0, a, b, c, d], w.length < 64) :
    mmReadBanner (banner ++ nl :: rest) =
      .ok ((bannerWords w0 (a.map lowerByte) (b.map lowerByte) (c.map lowerByte) (d.map lowerByte)).1,
        (bannerWords w0 (a.map lowerByte) (b.map lowerByte) (c.map lowerByte) (d.map lowerByte)).2, rest) := by
  unfold mmReadBanner
  rw [fgetsLine_line hl]
  simp only
  rw [cstr_line hl]
  have hwords : scanWords 5 (banner ++ [nl]) = .ok [w0, a, b, c, d] := by
    rw [scanWords_fields, fields_append_nl, hw]
    · rfl
    · rw [fields_append_nl, hw]
      exact h64
  rw [hwords]
  rfl

theorem formatWord_some {b : UInt8} {w : Bytes} (h : formatWord b = some w) :
    (b = 67 ∧ w = chars "coordinate") ∨ (b = 65 ∧ w = chars "array") := by
  unfold formatWord at h
  split at h <;> simp_all

theorem dataWord_some {b : UInt8} {w : Bytes} (h : dataWord b = some w) :
    (b = 82 ∧ w = chars "real") ∨ (b = 67 ∧ w = chars "complex") ∨ (b = 80 ∧ w = chars "pattern") ∨ (b = 73 ∧ w = chars "integer") := by
  unfold dataWord at h
  split at h <;> simp_all

theorem symmWord_some {b : UInt8} {w : Bytes} (h : symmWord b = some w) :
    (b = 71 ∧ w = chars "general") ∨ (b = 83 ∧ w = chars "symmetric") ∨ (b = 72 ∧ w = chars "hermitian") ∨
      (b = 75 ∧ w = chars "skew-symmetric") := by
  unfold symmWord at h
  split at h <;> simp_all

/-- A banner with these words, in either case, gives the code of the letters. -/
theorem mmReadBanner_code {banner rest a b c d fw dw sw : Bytes} {f x y : UInt8} (hl : LineOk banner)
    (hw : fields banner = [chars "%%MatrixMarket", a, b, c, d]) (ha : a.map lowerByte = chars "matrix")
    (hb : b.map lowerByte = fw) (hc : c.map lowerByte = dw) (hd : d.map lowerByte = sw)
    (h1 : formatWord f = some fw) (h2 : dataWord x = some dw) (h3 : symmWord y = some sw) :
    mmReadBanner (banner ++ nl :: rest) = .ok (0, ⟨77, f, x, y⟩, rest) := by
  have hlen : ∀ {u v : Bytes}, u.map lowerByte = v → v.length < 64 → u.length < 64 := by
    intro u v e h; rw [← e, List.length_map] at h; exact h
  have l1 : fw.length < 64 := by rcases formatWord_some h1 with ⟨-, rfl⟩ | ⟨-, rfl⟩ <;> decide
  have l2 : dw.length < 64 := by rcases dataWord_some h2 with ⟨-, rfl⟩ | ⟨-, rfl⟩ | ⟨-, rfl⟩ | ⟨-, rfl⟩ <;> decide
  have l3 : sw.length < 64 := by rcases symmWord_some h3 with ⟨-, rfl⟩ | ⟨-, rfl⟩ | ⟨-, rfl⟩ | ⟨-, rfl⟩ <;> decide
  rw [mmReadBanner_words hl hw (by
    intro w hm
    simp only [List.mem_cons, List.not_mem_nil, or_false] at hm
    rcases hm with rfl | rfl | rfl | rfl | rfl
    · decide
    · exact hlen ha (by decide)
    · exact hlen hb l1
    · exact hlen hc l2
    · exact hlen hd l3), ha, hb, hc, hd]
  rcases formatWord_some h1 with ⟨rfl, rfl⟩ | ⟨rfl, rfl⟩ <;>
    rcases dataWord_some h2 with ⟨rfl, rfl⟩ | ⟨rfl, rfl⟩ | ⟨rfl, rfl⟩ | ⟨rfl, rfl⟩ <;>
    rcases symmWord_some h3 with ⟨rfl, rfl⟩ | ⟨rfl, rfl⟩ | ⟨rfl, rfl⟩ | ⟨rfl, rfl⟩ <;> rfl

/-- The header line of a type code. -/
def headerLine (fw dw sw : Bytes) : Bytes :=
  chars "%%MatrixMarket" ++ chars " " ++ (chars "matrix" ++ chars " " ++ fw ++ chars " " ++ dw ++ chars " " ++ sw)

theorem headerLine_ok {fw dw sw : Bytes} {f x y : UInt8} (h1 : formatWord f = some fw) (h2 : dataWord x = some dw)
    (h3 : symmWord y = some sw) :
    LineOk (headerLine fw dw sw) ∧ fields (headerLine fw dw sw) = [chars "%%MatrixMarket", chars "matrix", fw, dw, sw] ∧
      fw.map lowerByte = fw ∧ dw.map lowerByte = dw ∧ sw.map lowerByte = sw := by
  unfold LineOk
  rcases formatWord_some h1 with ⟨rfl, rfl⟩ | ⟨rfl, rfl⟩ <;>
    rcases dataWord_some h2 with ⟨rfl, rfl⟩ | ⟨rfl, rfl⟩ | ⟨rfl, rfl⟩ | ⟨rfl, rfl⟩ <;>
    rcases symmWord_some h3 with ⟨rfl, rfl⟩ | ⟨rfl, rfl⟩ | ⟨rfl, rfl⟩ | ⟨rfl, rfl⟩ <;> decide +kernel

theorem mmTypecodeToStr_ok {t : TypeCode} {fw dw sw : Bytes} (h0 : t.object = 77) (h1 : formatWord t.format = some fw)
    (h2 : dataWord t.data = some dw) (h3 : symmWord t.symm = some sw) :
    mmTypecodeToStr t = .ok (some (chars "matrix" ++ chars " " ++ fw ++ chars " " ++ dw ++ chars " " ++ sw)) := by
  obtain ⟨o, f, x, y⟩ := t
  simp only at h0 h1 h2 h3
  subst h0
  rcases formatWord_some h1 with ⟨rfl, rfl⟩ | ⟨rfl, rfl⟩ <;>
    rcases dataWord_some h2 with ⟨rfl, rfl⟩ | ⟨rfl, rfl⟩ | ⟨rfl, rfl⟩ | ⟨rfl, rfl⟩ <;>
    rcases symmWord_some h3 with ⟨rfl, rfl⟩ | ⟨rfl, rfl⟩ | ⟨rfl, rfl⟩ | ⟨rfl, rfl⟩ <;> rfl

/-! ### Numbers printed -/

theorem printD_text {z : Int} (h : -2 ^ 31 ≤ z) (h' : z < 2 ^ 31) : IntText (printD z) z := by
  unfold printD
  by_cases hz : z < 0
  · rw [if_pos hz]
    exact .inr ⟨printLu z.natAbs, z.natAbs, rfl, printLu_unsigned _, by omega, by omega⟩
  · rw [if_neg hz]
    exact .inl ⟨z.natAbs, printLu_numeral _, by omega, by omega⟩

theorem printD_bytes {z : Int} (h : -2 ^ 31 ≤ z) (h' : z < 2 ^ 31) :
    (printD z).length ≤ 11 ∧ nl ∉ printD z ∧ (0 : UInt8) ∉ printD z := by
  have hab : z.natAbs < 10 ^ 10 := by omega
  have hl := printLu_length 10 _ hab (by decide)
  have hb := printLu_bytes z.natAbs
  unfold printD
  split
  · refine ⟨by simp [chars]; omega, ?_, ?_⟩
    · rw [List.mem_append]; rintro (h | h); exact absurd h (by decide); exact hb.1 h
    · rw [List.mem_append]; rintro (h | h); exact absurd h (by decide); exact hb.2 h
  · exact ⟨by omega, hb⟩

theorem printD_ne_nil (z : Int) : 1 ≤ (printD z).length := by
  have := (printLu_unsigned z.natAbs).1
  unfold printD
  split
  · simp [chars]
  · exact List.length_pos_iff.2 this

theorem lineOk_append {a b : Bytes} (ha : nl ∉ a ∧ (0 : UInt8) ∉ a) (hb : nl ∉ b ∧ (0 : UInt8) ∉ b) :
    nl ∉ a ++ b ∧ (0 : UInt8) ∉ a ++ b := by
  simp only [List.mem_append, not_or]
  exact ⟨⟨ha.1, hb.1⟩, ha.2, hb.2⟩

theorem sizeOk_printed {m n z : Int} (hm : -2 ^ 31 ≤ m ∧ m < 2 ^ 31) (hn : -2 ^ 31 ≤ n ∧ n < 2 ^ 31) (hz : -2 ^ 31 ≤ z ∧ z < 2 ^ 31) :
    SizeOk [] [] (printD m) (chars " ") (printD n) (chars " ") (printD z) [] m n z where
  lead := .inl ⟨rfl, by
    obtain ⟨a1, a2⟩ := printD_bytes hm.1 hm.2
    obtain ⟨b1, b2⟩ := printD_bytes hn.1 hn.2
    obtain ⟨c1, c2⟩ := printD_bytes hz.1 hz.2
    have hsp : nl ∉ chars " " ∧ (0 : UInt8) ∉ chars " " := by decide
    have hl : (chars " ").length = 1 := by decide
    refine ⟨?_, ?_⟩
    · simp only [List.length_append, List.length_nil, hl]; omega
    · simp only [List.nil_append, List.append_nil]
      exact lineOk_append (lineOk_append (lineOk_append (lineOk_append a2 hsp) b2) hsp) c2⟩
  s0 := blank_nil
  s1 := ⟨blank_space, by decide⟩
  s2 := ⟨blank_space, by decide⟩
  s3 := blank_nil
  t0 := printD_text hm.1 hm.2
  t1 := printD_text hn.1 hn.2
  t2 := printD_text hz.1 hz.2

/-! ### Writing loop -/

theorem crdLines_ok {line : Nat → C Bytes} {g : Nat → Bytes} {n : Nat} (h : ∀ i < n, line i = .ok (g i)) :
    crdLines line n = .ok ((List.range n).flatMap g) := by
  unfold crdLines
  refine forLoop_closed' (fun i => (List.range i).flatMap g) (Nat.zero_le _) rfl rfl (fun i _ hi => ?_)
  rw [h i hi]
  simp only [ok_bind]
  rw [List.range_succ, List.flatMap_append]
  simp

end Gsb
