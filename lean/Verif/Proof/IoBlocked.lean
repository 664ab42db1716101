import Verif.Model.IoBlocked
import Verif.Proof.IoBin
import Verif.Proof.CsbrTop
import Verif.Proof.Csbr2
import Verif.Props.IoBin
/-
The blocked file format: the writer's bytes, and the readers as simulations of the in-memory
constructors.
-/
namespace Gsb
variable {T : Type} {w : Nat} {cv : Codec T}

/-- What a record holds. -/
def recOf (e : Element T) : Nat × Ent T := (e.block, NZ.toEnt e)

/-- The bytes of an element's record. -/
abbrev recB (w : Nat) (cv : Codec T) (e : Element T) : Bytes := blockRecord w cv (recOf e)

theorem recB_eq (e : Element T) : recB w cv e =
    (idx w).enc e.block ++ ((idx w).enc e.row ++ ((idx w).enc e.col ++ cv.enc e.val)) := by
  simp [blockRecord, recOf, NZ.toEnt, idx]

theorem recB_length (hv : cv.Exact (fun _ => True)) (e : Element T) : (recB w cv e).length = 3 * w + cv.size := by
  simp only [blockRecord, List.length_append, leBytes_length, hv.len]; omega

theorem recs_length (hv : cv.Exact (fun _ => True)) (es : List (Element T)) :
    (es.flatMap (recB w cv)).length = es.length * (3 * w + cv.size) := by
  induction es with
  | nil => simp
  | cons e es ih => rw [List.flatMap_cons, List.length_append, ih, recB_length hv, List.length_cons, Nat.add_mul, Nat.one_mul, Nat.add_comm]

theorem writeRec_take {d : Disk} (hw : 0 < w) (hv : cv.Exact (fun _ => True)) (e : Element T) (p : Bytes) :
    writeRec w cv d (p.take d.room) e = (p ++ recB w cv e).take d.room := by
  have hi := idx_exact hw
  unfold writeRec
  simp only
  rw [fwrite1_take hi, fwrite1_take hi, fwrite1_take hi, fwrite1_take hv, recB_eq]
  simp only [List.append_assoc]

theorem writeRecs_take {d : Disk} (hw : 0 < w) (hv : cv.Exact (fun _ => True)) (es : List (Element T)) (p : Bytes) :
    es.foldl (writeRec w cv d) (p.take d.room) = (p ++ es.flatMap (recB w cv)).take d.room := by
  induction es generalizing p with
  | nil => simp
  | cons e es ih => rw [List.foldl_cons, writeRec_take hw hv, ih, List.flatMap_cons, List.append_assoc]

theorem blockFile_eq (rows columns blockrows blockcols nnzblocks : Nat) (es : List (Element T)) :
    blockFile w cv rows columns blockrows blockcols nnzblocks (es.map recOf) =
      packed (idx w) [rows, columns, es.length, blockrows, blockcols, nnzblocks] ++ es.flatMap (recB w cv) := by
  simp only [blockFile, List.length_map, List.flatMap_map]

theorem blockFile_length (hw : 0 < w) (hv : cv.Exact (fun _ => True)) (rows columns blockrows blockcols nnzblocks : Nat) (es : List (Element T)) :
    (blockFile w cv rows columns blockrows blockcols nnzblocks (es.map recOf)).length = 6 * w + es.length * (3 * w + cv.size) := by
  rw [blockFile_eq, List.length_append, recs_length hv, packed_length (idx_exact hw)]; rfl

theorem writeBinBlocked_eq (hw : 0 < w) (hv : cv.Exact (fun _ => True)) (d : Disk) (fs : FS) (name : String)
    (rows columns blockrows blockcols nnzblocks : Nat) (es : List (Element T)) (ho : d.opens name = true) :
    writeBinBlocked w cv d fs name rows columns blockrows blockcols nnzblocks es =
      (0, fs.set name ((blockFile w cv rows columns blockrows blockcols nnzblocks (es.map recOf)).take (min d.kept d.room))) := by
  unfold writeBinBlocked
  rw [if_pos ho]
  simp only
  rw [fwriteEach_nil_take (idx_exact hw), writeRecs_take hw hv, blockFile_eq, Disk.close, List.take_take]

/-! ### Reading -/

theorem readWords_ok (hw : 0 < w) (l : List Nat) (hl : ∀ a ∈ l, a < 256 ^ w) (f : In) (t : Bytes)
    (h : f.rest = packed (idx w) l ++ t) :
    readWords w l.length f = (l.length, l.map some, ⟨f.data, f.pos + l.length * w⟩) := by
  have hi := idx_exact hw
  induction l generalizing f with
  | nil => simp [readWords]
  | cons a l ih =>
    rw [packed_cons, List.append_assoc] at h
    have h1 := fread1_enc (v := none) hi (hl a List.mem_cons_self) h
    have h2 := ih (fun b hb => hl b (List.mem_cons_of_mem _ hb)) ⟨f.data, f.pos + (idx w).size⟩ (by
      rw [In.rest_forward, h, List.drop_left' (hi.len a)])
    simp only [List.length_cons, readWords, h1, h2, List.map_cons, Prod.mk.injEq, In.mk.injEq, true_and, and_true]
    refine ⟨by omega, ?_⟩
    show f.pos + w + _ = _
    rw [Nat.succ_mul]; omega

/-- However short the file, the words read are counted. -/
theorem readWords_short (hw : 0 < w) (k : Nat) (f : In) (h : f.rest.length < k * w) : (readWords w k f).1 < k := by
  induction k generalizing f with
  | zero => omega
  | succ k ih =>
    rw [readWords]
    simp only
    by_cases h1 : w ≤ f.rest.length
    · have e : fread1 (idx w) f none = (1, some ((idx w).dec (f.rest.take (idx w).size)), ⟨f.data, f.pos + (idx w).size⟩) := by
        unfold fread1; exact if_pos h1
      rw [e]
      have := ih ⟨f.data, f.pos + w⟩ (by rw [In.rest_forward, List.length_drop]; rw [Nat.succ_mul] at h; omega)
      simp only
      show 1 + (readWords w k ⟨f.data, f.pos + w⟩).1 < _
      omega
    · have e := fread1_short (c := idx w) (v := none) (f := f) (show f.rest.length < (idx w).size by show _ < w; omega)
      rw [e]
      simp only
      by_cases hk : k = 0
      · subst hk; simp [readWords]
      · have hm : w ≤ k * w := by
          have := Nat.mul_le_mul_right w (show 1 ≤ k by omega); omega
        have := ih ⟨f.data, f.pos + f.rest.length⟩ (by
          rw [In.rest_forward, List.drop_eq_nil_of_le (Nat.le_refl _)]; simp; omega)
        omega

/-- Elements the index type can hold. -/
def Fits (M : Nat) (e : Element T) : Prop := e.block < M ∧ e.row < M ∧ e.col < M

theorem readRec_ok (hw : 0 < w) (hv : cv.Exact (fun _ => True)) (f : In) (v : RecVars T) (e : Element T) (he : Fits (256 ^ w) e)
    (t : Bytes) (h : f.rest = recB w cv e ++ t) :
    readRec w cv f v = (4, ⟨some e.block, some e.row, some e.col, some e.val⟩, ⟨f.data, f.pos + (3 * w + cv.size)⟩) := by
  have hi := idx_exact hw
  rw [recB_eq] at h
  simp only [List.append_assoc] at h
  have h1 := fread1_enc (v := v.b) hi he.1 h
  have r1 : (⟨f.data, f.pos + (idx w).size⟩ : In).rest = (idx w).enc e.row ++ ((idx w).enc e.col ++ (cv.enc e.val ++ t)) := by rw [In.rest_forward, h, List.drop_left' (hi.len _)]
  have h2 := fread1_enc (v := v.row) hi he.2.1 r1
  have r2 : (⟨f.data, f.pos + (idx w).size + (idx w).size⟩ : In).rest = (idx w).enc e.col ++ (cv.enc e.val ++ t) := by
    rw [In.rest_forward ⟨f.data, f.pos + (idx w).size⟩, r1, List.drop_left' (hi.len _)]
  have h3 := fread1_enc (v := v.col) hi he.2.2 r2
  have r3 : (⟨f.data, f.pos + (idx w).size + (idx w).size + (idx w).size⟩ : In).rest = cv.enc e.val ++ t := by
    rw [In.rest_forward ⟨f.data, f.pos + (idx w).size + (idx w).size⟩, r2, List.drop_left' (hi.len _)]
  have h4 := fread1_enc (v := v.val) hv trivial r3
  unfold readRec
  simp only
  rw [h1]
  simp only
  rw [h2]
  simp only
  rw [h3]
  simp only
  rw [h4]
  simp only [Prod.mk.injEq, In.mk.injEq, true_and]
  show f.pos + w + w + w + _ = _
  omega

/-- The effect of a `fread` on the stream and its count, whatever is there. -/
theorem fread1_count {α : Type} {c : Codec α} (f : In) (v : Option α) :
    (fread1 c f v).1 = (if c.size ≤ f.rest.length then 1 else 0) ∧
    (fread1 c f v).2.2.rest = f.rest.drop c.size ∧ (fread1 c f v).2.2.data = f.data := by
  unfold fread1
  by_cases h : c.size ≤ f.rest.length
  · simp only [if_pos h]; exact ⟨trivial, In.rest_forward _ _, trivial⟩
  · simp only [if_neg h]
    refine ⟨trivial, ?_, trivial⟩
    rw [In.rest_forward, List.drop_eq_nil_of_le (Nat.le_refl _), List.drop_eq_nil_of_le (by omega)]

theorem readRec_short (hw : 0 < w) (hv : cv.Exact (fun _ => True)) (f : In) (v : RecVars T)
    (h : f.rest.length < 3 * w + cv.size) : (readRec w cv f v).1 ≠ 4 := by
  have hpos := hv.pos
  unfold readRec
  simp only
  obtain ⟨a1, b1, -⟩ := fread1_count (c := idx w) f v.b
  obtain ⟨a2, b2, -⟩ := fread1_count (c := idx w) (fread1 (idx w) f v.b).2.2 v.row
  obtain ⟨a3, b3, -⟩ := fread1_count (c := idx w) (fread1 (idx w) (fread1 (idx w) f v.b).2.2 v.row).2.2 v.col
  obtain ⟨a4, b4, -⟩ := fread1_count (c := cv) (fread1 (idx w) (fread1 (idx w) (fread1 (idx w) f v.b).2.2 v.row).2.2 v.col).2.2 v.val
  rw [a1, a2, a3, a4, b3, b2, b1]
  simp only [List.length_drop]
  have : (idx w).size = w := rfl
  rw [this]
  split <;> split <;> split <;> split <;> omega

/-! ### Simulation of the constructors' loop -/

section sim
variable {σ : Type} {es : List (Element T)} {nb : Nat → Nat → Nat → σ → C σ} {el : Nat → Nat → σ → C σ}
  {nb' : Nat → Nat → Nat → σ → C σ} {el' : Element T → Nat → Nat → σ → C σ} {φ : σ → σ}

/-- The body of the reader's loop. -/
abbrev ioBody (w : Nat) (cv : Codec T) (nb' : Nat → Nat → Nat → σ → C σ) (el' : Element T → Nat → Nat → σ → C σ)
    (i : Nat) (s : Int × In × Scan σ) : C (Int × In × Scan σ) :=
    if s.1 ≠ 0 then .ok s
    else
      let r := readRec w cv s.2.1 ⟨none, none, none, none⟩
      if r.1 ≠ 4 then .ok (-4, r.2.2, s.2.2)
      else match r.2.1 with
        | ⟨some b, some row, some col, some val⟩ => do
          let sc ← blockedStep (256 ^ w) nb' el' i ⟨row, col, val, b⟩ s.2.2
          .ok (0, r.2.2, sc)
        | _ => .error .uninit

theorem bind_ok {α β : Type} {a : C α} {k : α → C β} {r : β} (h : (a >>= k) = .ok r) : ∃ x, a = .ok x ∧ k x = .ok r := by
  cases a with
  | error e => cases h
  | ok x => exact ⟨x, rfl, h⟩

theorem step_sim (hU : uintMax (256 ^ w) = 256 ^ w - 1)
    (hsorted : es.Pairwise (fun a b => a.block ≤ b.block))
    (hnb : ∀ i bi b s s', nb i bi b s = .ok s' → nb' i bi b (φ s) = .ok (φ s'))
    (hel : ∀ i bi s s' (h : i < es.length), el i bi s = .ok s' → el' es[i] i bi (φ s) = .ok (φ s'))
    (i : Nat) (hi : i < es.length) (s s' : Scan σ)
    (hprev : (i = 0 ∧ s.prevB = 256 ^ w - 1) ∨ ∃ (h : i - 1 < es.length), 0 < i ∧ s.prevB = (es[i - 1]).block)
    (h : scanStep (256 ^ w) (elemBlock es) nb el i s = .ok s') :
    blockedStep (256 ^ w) nb' el' i es[i] ⟨s.blockIndex, s.prevB, φ s.st⟩ = .ok ⟨s'.blockIndex, s'.prevB, φ s'.st⟩ ∧
      s'.prevB = es[i].block := by
  unfold scanStep at h
  rw [elemBlock_ok es i hi, ok_bind] at h
  unfold blockedStep
  by_cases hb : es[i].block ≠ s.prevB
  · rw [if_pos hb] at h
    simp only at h
    cases h2 : nb i (addM (256 ^ w) s.blockIndex 1) es[i].block s.st with
    | error e => rw [h2] at h; cases h
    | ok st1 =>
    rw [h2] at h
    simp only [ok_bind] at h
    obtain ⟨st2, h3, h⟩ := bind_ok h
    cases h
    simp only [if_pos hb]
    rw [cassert_ok (by
      rcases hprev with ⟨-, hp⟩ | ⟨hlt, hpos, hp⟩
      · rw [hU, hp]; simp
      · have := List.pairwise_iff_getElem.1 hsorted (i - 1) i hlt hi (by omega)
        rw [hp] at hb ⊢
        simp only [gt_iff_lt, Bool.or_eq_true, decide_eq_true_eq]
        left; omega), hnb _ _ _ _ _ h2]
    simp only [ok_bind]
    rw [hel _ _ _ _ hi h3, ok_bind]
    simp only [and_self]
  · rw [if_neg hb] at h
    simp only [ok_bind] at h
    obtain ⟨st2, h3, h⟩ := bind_ok h
    cases h
    simp only [if_neg hb, ok_bind]
    rw [hel _ _ _ _ hi h3, ok_bind]
    exact ⟨rfl, by simp only [ne_eq, Decidable.not_not] at hb; exact hb.symm⟩

theorem loop_sim (hw : 0 < w) (hv : cv.Exact (fun _ => True)) (hU : uintMax (256 ^ w) = 256 ^ w - 1)
    (hfits : ∀ e ∈ es, Fits (256 ^ w) e)
    (hsorted : es.Pairwise (fun a b => a.block ≤ b.block))
    (hnb : ∀ i bi b s s', nb i bi b s = .ok s' → nb' i bi b (φ s) = .ok (φ s'))
    (hel : ∀ i bi s s' (h : i < es.length), el i bi s = .ok s' → el' es[i] i bi (φ s) = .ok (φ s'))
    (init : σ) (fin : Scan σ) (hscan : forLoop 0 es.length (⟨256 ^ w - 1, 256 ^ w - 1, init⟩ : Scan σ)
      (scanStep (256 ^ w) (elemBlock es) nb el) = .ok fin)
    (f : In) (t : Bytes) (j : Nat) (hj : j ≤ es.length) (hf : f.rest = (es.take j).flatMap (recB w cv) ++ t) :
    ∃ s, forLoop 0 j (⟨256 ^ w - 1, 256 ^ w - 1, init⟩ : Scan σ) (scanStep (256 ^ w) (elemBlock es) nb el) = .ok s ∧
      forLoop 0 j ((0 : Int), f, (⟨256 ^ w - 1, 256 ^ w - 1, φ init⟩ : Scan σ)) (ioBody w cv nb' el') =
        .ok (0, ⟨f.data, f.pos + j * (3 * w + cv.size)⟩, ⟨s.blockIndex, s.prevB, φ s.st⟩) ∧
      ((j = 0 ∧ s.prevB = 256 ^ w - 1) ∨ ∃ (h : j - 1 < es.length), 0 < j ∧ s.prevB = (es[j - 1]).block) := by
  induction j generalizing t with
  | zero => exact ⟨_, forLoop_empty (Nat.le_refl _), by rw [forLoop_empty (Nat.le_refl _)]; simp, .inl ⟨rfl, rfl⟩⟩
  | succ j ih =>
    have hjl : j < es.length := hj
    have hf' : f.rest = (es.take j).flatMap (recB w cv) ++ (recB w cv es[j] ++ t) := by
      rw [hf, List.take_succ_eq_append_getElem hjl, List.flatMap_append, List.append_assoc, List.flatMap_cons, List.flatMap_nil, List.append_nil]
    obtain ⟨s, e1, e2, e3⟩ := ih (recB w cv es[j] ++ t) (by omega) hf'
    rw [forLoop_split (Nat.zero_le j) (Nat.le_of_lt hjl), e1, ok_bind, forLoop_step hjl] at hscan
    obtain ⟨s', h1, -⟩ := bind_ok hscan
    obtain ⟨g1, g2⟩ := step_sim hU hsorted hnb hel j hjl s s' e3 h1
    refine ⟨s', ?_, ?_, .inr ⟨by omega, by omega, g2⟩⟩
    · rw [forLoop_split (Nat.zero_le j) (Nat.le_succ j), e1, ok_bind, forLoop_step (Nat.lt_succ_self j), h1, ok_bind,
        forLoop_empty (Nat.le_refl _)]
    · rw [forLoop_split (Nat.zero_le j) (Nat.le_succ j), e2, ok_bind, forLoop_step (Nat.lt_succ_self j)]
      have hr := readRec_ok hw hv ⟨f.data, f.pos + j * (3 * w + cv.size)⟩ ⟨none, none, none, none⟩ es[j]
        (hfits _ (List.getElem_mem hjl)) t (by
          rw [In.rest_forward, hf', List.drop_left' (by rw [recs_length hv]; simp; left; omega)])
      simp only [ioBody, ne_eq, not_true_eq_false, if_false]
      rw [hr]
      simp only [ne_eq, not_true_eq_false, if_false]
      have : (⟨es[j].row, es[j].col, es[j].val, es[j].block⟩ : Element T) = es[j] := rfl
      rw [this, g1, ok_bind, ok_bind, forLoop_empty (Nat.le_refl _), Nat.add_mul j 1, Nat.one_mul, Nat.add_assoc]

/-- A code once returned stays. -/
theorem loop_stop (r : Int) (hr : r ≠ 0) (f : In) (s : Scan σ) (lo hi : Nat) :
    forLoop lo hi (r, f, s) (ioBody w cv nb' el') = .ok (r, f, s) := by
  by_cases h : lo ≤ hi
  · exact forLoop_closed' (fun _ => (r, f, s)) h rfl rfl (fun i _ _ => by simp only [ioBody, if_pos hr])
  · exact forLoop_empty (by omega)

/-- A data section cut short: the reader returns -4. -/
theorem loop_cut (hw : 0 < w) (hv : cv.Exact (fun _ => True)) (hU : uintMax (256 ^ w) = 256 ^ w - 1)
    (hfits : ∀ e ∈ es, Fits (256 ^ w) e)
    (hsorted : es.Pairwise (fun a b => a.block ≤ b.block))
    (hnb : ∀ i bi b s s', nb i bi b s = .ok s' → nb' i bi b (φ s) = .ok (φ s'))
    (hel : ∀ i bi s s' (h : i < es.length), el i bi s = .ok s' → el' es[i] i bi (φ s) = .ok (φ s'))
    (init : σ) (fin : Scan σ) (hscan : forLoop 0 es.length (⟨256 ^ w - 1, 256 ^ w - 1, init⟩ : Scan σ)
      (scanStep (256 ^ w) (elemBlock es) nb el) = .ok fin)
    (f : In) (k : Nat) (hk : k < es.length * (3 * w + cv.size)) (hf : f.rest = (es.flatMap (recB w cv)).take k) :
    ∃ f' s, blockedLoop w cv nb' el' es.length f (φ init) = .ok (-4, f', s) := by
  have hpos := hv.pos
  have hrs : 0 < 3 * w + cv.size := by omega
  have hj : k / (3 * w + cv.size) < es.length := (Nat.div_lt_iff_lt_mul hrs).2 hk
  have hm := Nat.div_add_mod k (3 * w + cv.size)
  have hml := Nat.mod_lt k hrs
  generalize k / (3 * w + cv.size) = j at hj hm
  rw [Nat.mul_comm] at hm
  have hrl : f.rest.length = k := by rw [hf, List.length_take, recs_length hv]; omega
  obtain ⟨s, -, e2, -⟩ := loop_sim (cv := cv) hw hv hU hfits hsorted hnb hel init fin hscan f (f.rest.drop (j * (3 * w + cv.size))) j (by omega) (by
    conv_lhs => rw [← List.take_append_drop (j * (3 * w + cv.size)) f.rest]
    congr 1
    rw [hf, List.take_take, Nat.min_eq_left (by omega)]
    conv_lhs => rw [← List.take_append_drop j es, List.flatMap_append]
    rw [List.take_left' (by rw [recs_length hv]; simp; left; omega)])
  have hshort := readRec_short hw hv ⟨f.data, f.pos + j * (3 * w + cv.size)⟩ ⟨none, none, none, none⟩ (by
    rw [In.rest_forward, List.length_drop]; omega)
  unfold blockedLoop
  rw [hU]
  refine ⟨(readRec w cv ⟨f.data, f.pos + j * (3 * w + cv.size)⟩ ⟨none, none, none, none⟩).2.2, ⟨s.blockIndex, s.prevB, φ s.st⟩, ?_⟩
  show forLoop 0 es.length _ (ioBody w cv nb' el') = _
  rw [forLoop_split (Nat.zero_le j) (by omega), e2, ok_bind, forLoop_step hj]
  have hb : ioBody w cv nb' el' j (0, ⟨f.data, f.pos + j * (3 * w + cv.size)⟩, ⟨s.blockIndex, s.prevB, φ s.st⟩) =
      .ok (-4, (readRec w cv ⟨f.data, f.pos + j * (3 * w + cv.size)⟩ ⟨none, none, none, none⟩).2.2, ⟨s.blockIndex, s.prevB, φ s.st⟩) := by
    simp only [ioBody, ne_eq, not_true_eq_false, if_false]
    rw [if_pos hshort]
  rw [hb, ok_bind]
  exact loop_stop (-4) (by decide) _ _ _ _

end sim

end Gsb
