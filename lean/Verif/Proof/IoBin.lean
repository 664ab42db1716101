import Verif.Model.IoBin
namespace Gsb
variable {α T : Type} {c : Codec α} {ok : α → Prop}

/-! ### Reading -/

theorem In.rest_forward (f : In) (n : Nat) : (⟨f.data, f.pos + n⟩ : In).rest = f.rest.drop n := by
  simp [In.rest, List.drop_drop]

theorem fread1_enc (hc : c.Exact ok) {f : In} {v : Option α} {a : α} {t : Bytes} (ha : ok a)
    (h : f.rest = c.enc a ++ t) : fread1 c f v = (1, some a, ⟨f.data, f.pos + c.size⟩) := by
  unfold fread1
  have hl := hc.len a
  rw [h, if_pos (by simp; omega), List.take_left' hl, hc.dec_enc a ha]

theorem fread1_short {f : In} {v : Option α} (h : f.rest.length < c.size) :
    fread1 c f v = (0, if f.rest.length = 0 then v else none, ⟨f.data, f.pos + f.rest.length⟩) := by
  unfold fread1
  rw [if_neg (by omega)]

/-- The count and the position, for any contents. -/
theorem fread1_pos {f : In} {v : Option α} (hc : 0 < c.size) :
    ∃ v' f', fread1 c f v = (min 1 (f.rest.length / c.size), v', f') ∧ f'.data = f.data ∧
      f'.rest = f.rest.drop c.size := by
  by_cases h : c.size ≤ f.rest.length
  · refine ⟨some (c.dec (f.rest.take c.size)), ⟨f.data, f.pos + c.size⟩, ?_, rfl, ?_⟩
    · have : 1 ≤ f.rest.length / c.size := (Nat.one_le_div_iff hc).2 h
      rw [Nat.min_eq_left this]; unfold fread1; rw [if_pos h]
    · exact In.rest_forward _ _
  · refine ⟨if f.rest.length = 0 then v else none, ⟨f.data, f.pos + f.rest.length⟩, ?_, rfl, ?_⟩
    · rw [fread1_short (by omega), Nat.div_eq_of_lt (by omega)]; rfl
    · rw [In.rest_forward, List.drop_eq_nil_of_le (Nat.le_refl _), List.drop_eq_nil_of_le (by omega)]

theorem readLoop_count {M n : Nat} (hc : 0 < c.size) (s : Nat × Option α × In × Buf α) (hs : s.1 < M)
    (hn : n ≤ s.2.2.2.len) :
    ∃ s', readLoop M c n s = .ok s' ∧ s'.1 = (s.1 + min n (s.2.2.1.rest.length / c.size)) % M ∧
      s'.2.2.1.data = s.2.2.1.data ∧ s'.2.2.1.rest = s.2.2.1.rest.drop (n * c.size) ∧
      s'.2.2.2.len = s.2.2.2.len := by
  unfold readLoop
  refine forLoop_inv (fun i (s' : Nat × Option α × In × Buf α) => s'.1 = (s.1 + min i (s.2.2.1.rest.length / c.size)) % M ∧
      s'.2.2.1.data = s.2.2.1.data ∧ s'.2.2.1.rest = s.2.2.1.rest.drop (i * c.size) ∧
      s'.2.2.2.len = s.2.2.2.len) (Nat.zero_le _) ?_ ?_
  · simp [Nat.mod_eq_of_lt hs]
  · rintro i ⟨k, b, f, a⟩ _ hi ⟨h1, h2, h3, h4⟩
    obtain ⟨v', f', e1, e2, e3⟩ := fread1_pos (f := f) (v := b) hc
    simp only at h1 h2 h3 h4 ⊢
    rw [e1]
    simp only
    unfold Buf.putOpt
    rw [if_pos (by omega), ok_bind]
    refine ⟨_, rfl, ?_, by rw [e2, h2], ?_, h4⟩
    · simp only
      unfold addM
      rw [h1, h3, List.length_drop, Nat.mod_add_mod, Nat.mul_comm i, Nat.sub_mul_div]
      congr 1
      generalize s.2.2.1.rest.length / c.size = q
      omega
    · simp only
      rw [e3, h3, List.drop_drop, Nat.succ_mul]

theorem ofList_putOpt (l : List α) (n i : Nat) (hi : i < l.length) (hn : l.length ≤ n) :
    (⟨n, fun k => (l.take i)[k]?⟩ : Buf α).putOpt i (some l[i]) = .ok ⟨n, fun k => (l.take (i + 1))[k]?⟩ := by
  unfold Buf.putOpt
  rw [if_pos (by simp only; omega)]
  congr 2
  funext k
  simp only [List.getElem?_take]
  by_cases h : k = i
  · subst h; simp [hi]
  · simp only [h, if_false]
    by_cases h2 : k < i
    · simp [h2, show k < i + 1 by omega]
    · simp [h2, show ¬ k < i + 1 by omega]

theorem readLoop_content {M : Nat} (hc : c.Exact ok) (l : List α) (hl : ∀ a ∈ l, ok a) (k : Nat) (b : Option α)
    (f : In) (t : Bytes) (hk : k < M) (hf : f.rest = packed c l ++ t) :
    ∃ b', readLoop M c l.length (k, b, f, Buf.uninit l.length) =
      .ok ((k + l.length) % M, b', ⟨f.data, f.pos + l.length * c.size⟩, Buf.ofList l) := by
  unfold readLoop
  obtain ⟨s', e, h⟩ := forLoop_inv (fun i (s : Nat × Option α × In × Buf α) =>
      s.1 = (k + i) % M ∧ s.2.2.1 = ⟨f.data, f.pos + i * c.size⟩ ∧ s.2.2.2 = ⟨l.length, fun j => (l.take i)[j]?⟩)
    (f := fun i s => do
      let r := fread1 c s.2.2.1 s.2.1
      let a ← s.2.2.2.putOpt i r.2.1
      Except.ok (addM M s.1 r.1, r.2.1, r.2.2, a)) (lo := 0) (hi := l.length)
      (s := (k, b, f, Buf.uninit l.length)) (Nat.zero_le _)
      (by simp [Buf.uninit, Nat.mod_eq_of_lt hk]) (by
      rintro i ⟨k', b', f', a⟩ _ hi ⟨h1, h2, h3⟩
      simp only at h1 h2 h3
      subst h1 h2 h3
      have hr : (⟨f.data, f.pos + i * c.size⟩ : In).rest = c.enc l[i] ++ (packed c (l.drop (i + 1)) ++ t) := by
        rw [In.rest_forward, hf]
        conv_lhs => rw [← List.take_append_drop i l, packed_append, List.append_assoc]
        rw [List.drop_left' (by rw [packed_length hc]; simp; left; omega), List.drop_eq_getElem_cons hi,
          packed_cons, List.append_assoc]
      rw [fread1_enc hc (hl _ (List.getElem_mem hi)) hr]
      simp only
      rw [ofList_putOpt l _ i hi (Nat.le_refl _), ok_bind]
      refine ⟨_, rfl, ?_, ?_, rfl⟩
      · simp only; unfold addM; rw [Nat.mod_add_mod, Nat.add_assoc]
      · simp only; rw [Nat.succ_mul, Nat.add_assoc])
  obtain ⟨k', b', f', a⟩ := s'
  simp only at h
  obtain ⟨rfl, rfl, rfl⟩ := h
  exact ⟨b', by rw [e]; congr 3; simp [Buf.ofList]⟩

theorem freadArr_content (hc : c.Exact ok) (n : Nat) (pre l : List α) (hl : ∀ a ∈ l, ok a)
    (f : In) (t : Bytes) (hf : f.rest = packed c l ++ t) (hn : pre.length + l.length ≤ n) :
    freadArr c l.length pre.length f ⟨n, fun j => pre[j]?⟩ =
      .ok (l.length, ⟨f.data, f.pos + l.length * c.size⟩, ⟨n, fun j => (pre ++ l)[j]?⟩) := by
  induction l generalizing pre f with
  | nil => simp [freadArr]
  | cons a l ih =>
    have hr : f.rest = c.enc a ++ (packed c l ++ t) := by rw [hf, packed_cons, List.append_assoc]
    have hpos := hc.pos
    have hlen := hc.len a
    rw [List.length_cons, freadArr, fread1_enc hc (hl _ List.mem_cons_self) hr]
    simp only
    rw [if_neg (by rw [hr]; simp; intro h; rw [h] at hlen; simp at hlen; omega)]
    have hp := ofList_putOpt (pre ++ [a]) n pre.length (by simp) (by simp at hn ⊢; omega)
    simp only [List.take_left, List.getElem_concat_length] at hp
    rw [hp, ok_bind, if_pos trivial]
    rw [show pre.length + 1 = (pre ++ [a]).length by simp, List.take_length]
    rw [ih (pre ++ [a]) (fun b hb => hl b (List.mem_cons_of_mem _ hb)) _ (by
      rw [In.rest_forward, hr, List.drop_left' hlen]) (by simp at hn ⊢; omega), ok_bind]
    simp [Nat.succ_mul, Nat.add_assoc, Nat.add_comm]
    omega

/-- `fread` of a whole array. -/
theorem freadArr_all (hc : c.Exact ok) (l : List α) (hl : ∀ a ∈ l, ok a)
    (f : In) (t : Bytes) (hf : f.rest = packed c l ++ t) :
    freadArr c l.length 0 f (Buf.uninit l.length) =
      .ok (l.length, ⟨f.data, f.pos + l.length * c.size⟩, Buf.ofList l) := by
  have := freadArr_content hc l.length [] l hl f t hf (by simp)
  simpa [Buf.uninit, Buf.ofList] using this

/-- `fread` of `n` items that are there, whatever the bytes are. -/
theorem freadArr_raw (hc : 0 < c.size) (n m i : Nat) (f : In) (a : Buf α) (hn : n * c.size ≤ f.rest.length)
    (ha : a.len = m) (hm : i + n ≤ m) :
    freadArr c n i f a = .ok (n, ⟨f.data, f.pos + n * c.size⟩, ⟨m, fun k => if i ≤ k ∧ k < i + n then
      some (c.dec ((f.rest.drop ((k - i) * c.size)).take c.size)) else a.dat k⟩) := by
  induction n generalizing i f a with
  | zero =>
    cases a
    simp only at ha
    subst ha
    simp only [freadArr, Nat.zero_mul, Nat.add_zero]
    congr 4
    funext k
    rw [if_neg (by omega)]
  | succ n ih =>
    rw [Nat.succ_mul] at hn
    rw [freadArr]
    have h1 : fread1 c f (a.dat i) = (1, some (c.dec (f.rest.take c.size)), ⟨f.data, f.pos + c.size⟩) := by
      unfold fread1; rw [if_pos (by omega)]
    rw [h1]
    simp only
    rw [if_neg (by omega)]
    unfold Buf.putOpt
    rw [if_pos (by omega), ok_bind, if_pos trivial]
    rw [ih (i + 1) ⟨f.data, f.pos + c.size⟩ ⟨a.len, fun k => if k = i then some (c.dec (f.rest.take c.size)) else a.dat k⟩
      (by rw [In.rest_forward, List.length_drop]; omega) ha (by omega), ok_bind]
    have hp : f.pos + c.size + n * c.size = f.pos + (n + 1) * c.size := by rw [Nat.succ_mul]; omega
    refine congrArg Except.ok (Prod.ext rfl (Prod.ext (by simp only [hp]) (Buf.ext' rfl ?_)))
    · intro k
      simp only
      rw [In.rest_forward]
      by_cases hk : k = i
      · subst hk; simp
      · by_cases h2 : i + 1 ≤ k ∧ k < i + 1 + n
        · rw [if_pos h2, if_pos (by omega), List.drop_drop]
          rw [show c.size + (k - (i + 1)) * c.size = (k - i) * c.size by
            rw [show k - i = (k - (i + 1)) + 1 by omega, Nat.succ_mul]; omega]
        · rw [if_neg h2, if_neg hk, if_neg (by omega)]

/-! ### Writing -/

theorem fwrite1_take {d : Disk} (hc : c.Exact ok) (a : α) (p : Bytes) :
    (fwrite1 d c a (p.take d.room)).2 = (p ++ c.enc a).take d.room := by
  have hl := hc.len a
  have hpos := hc.pos
  unfold fwrite1
  by_cases h : (p.take d.room).length + c.size ≤ d.room
  · rw [if_pos h]
    have : p.length ≤ d.room := by simp at h; omega
    simp only [List.take_of_length_le this]
    rw [List.take_of_length_le (by simp; rw [List.take_of_length_le this] at h; omega)]
  · rw [if_neg h]
    simp only [List.take_append, List.length_take]
    congr 1
    by_cases h2 : p.length ≤ d.room
    · rw [Nat.min_eq_right h2]
    · rw [show d.room - min d.room p.length = 0 by omega, show d.room - p.length = 0 by omega]

theorem fwriteEach_take {d : Disk} (hc : c.Exact ok) (l : List α) (p : Bytes) :
    fwriteEach d c l (p.take d.room) = (p ++ packed c l).take d.room := by
  unfold fwriteEach
  induction l generalizing p with
  | nil => simp
  | cons a l ih => rw [List.foldl_cons, fwrite1_take hc, ih, packed_cons, List.append_assoc]

theorem fwriteEach_nil_take {d : Disk} (hc : c.Exact ok) (l : List α) :
    fwriteEach d c l [] = (packed c l).take d.room := by
  have := fwriteEach_take (d := d) hc l []
  simpa using this

theorem fwriteArr_take {d : Disk} (hc : c.Exact ok) (l : List α) (p : Bytes) (hp : p.length ≤ d.room) :
    (fwriteArr d c l p).2 = (p ++ packed c l).take d.room ∧
    (fwriteArr d c l p).1 = min l.length ((d.room - p.length) / c.size) := by
  induction l generalizing p with
  | nil => simp [fwriteArr, List.take_of_length_le hp]
  | cons a l ih =>
    have hl := hc.len a
    have hpos := hc.pos
    rw [fwriteArr]
    simp only
    by_cases h : p.length + c.size ≤ d.room
    · have hf : fwrite1 d c a p = (1, p ++ c.enc a) := by unfold fwrite1; rw [if_pos h]
      rw [hf]
      simp only [if_true]
      obtain ⟨h1, h2⟩ := ih (p ++ c.enc a) (by simp; omega)
      refine ⟨by rw [h1, packed_cons, List.append_assoc], ?_⟩
      rw [h2]
      have e : d.room - p.length = (d.room - (p ++ c.enc a).length) + c.size := by simp; omega
      rw [e, Nat.add_div_right _ hpos]
      simp only [List.length_cons]
      omega
    · have hf : fwrite1 d c a p = (0, p ++ (c.enc a).take (d.room - p.length)) := by
        unfold fwrite1; rw [if_neg h]
      rw [hf, if_neg (by simp)]
      refine ⟨?_, ?_⟩
      · simp only
        rw [List.take_append, List.take_of_length_le hp, packed_cons, List.take_append]
        rw [show d.room - p.length - (c.enc a).length = 0 by omega]
        simp
      · rw [Nat.div_eq_of_lt (by omega)]; simp

end Gsb
