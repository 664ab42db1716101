import Verif.Par.Kernels
import Verif.Model.ParGsb
import Verif.Proof.BlockMat
/-
`spmv_blocked` under every schedule.
-/
namespace Gsb
variable {T : Type}

theorem arr_len {b o : Nat} {y : Buf T} {l : Loc} : arr b o y l = none ↔ ¬ (l.1 = b ∧ o ≤ l.2 ∧ l.2 < o + y.len) := by
  unfold arr
  split
  · next h => simp [h]
  · next h => simp [h]

theorem arr_none {b o : Nat} {y y' : Buf T} (h : y.len = y'.len) {l : Loc} : arr b o y l = none ↔ arr b o y' l = none := by
  rw [arr_len, arr_len, h]

/-- A program that does not allocate or release keeps the set of allocated cells. -/
theorem exec_dom {F : Loc → Prop} {p : Prog T} (hp : Foot F p) {m m' : Mem T} {r : Nat} (h : exec p m = .ok (r, m')) (l : Loc) :
    m' l = none ↔ m l = none := by
  induction p generalizing m m' r with
  | ret r0 => rw [exec_ret] at h; cases h; rfl
  | fail e => rw [exec_fail] at h; cases h
  | load l0 k ih =>
    rw [exec_load] at h
    split at h
    · cases h
    · cases h
    · exact ih _ (hp.2 _) h
  | store l0 v k ih =>
    rw [exec_store] at h
    split at h
    · cases h
    · next hl =>
      rw [ih hp.2 h]
      split
      · next e => subst e; rw [hl]; simp
      · rfl
  | alloc => exact hp.elim
  | free => exact hp.elim
  | fork p q k ihp ihq ihk =>
    rw [exec_fork] at h
    cases h1 : exec p m with
    | error e => rw [h1] at h; cases h
    | ok s1 =>
      rw [h1] at h
      cases h2 : exec q s1.2 with
      | error e => simp only [h2] at h; cases h
      | ok s2 =>
        simp only [h2] at h
        rw [ihk _ (hp.2.2 _) h, ihq hp.2.1 h2, ihp hp.1 h1]

theorem len_of_foot {F : Loc → Prop} {b o : Nat} {p : Prog T} {f : Buf T → C (Buf T)} (hp : Foot F p) (hs : Sim b o p f)
    {y y' : Buf T} (h : f y = .ok y') : y'.len = y.len := by
  obtain ⟨r, e⟩ := hs y y' h
  have hd := exec_dom hp e
  have key : ∀ i, (i < y'.len ↔ i < y.len) := by
    intro i
    have := hd (b, o + i)
    rw [arr_len, arr_len] at this
    simp only [true_and, Nat.le_add_right, Nat.add_lt_add_iff_left] at this
    exact not_iff_not.1 this
  have a := key y.len
  have c := key y'.len
  omega

/-- `code` is a right implementation of the block kernel `f`: it does not allocate, alone it does what `f` does, and so it
does under every schedule of its own parallel loops. -/
def CodeOk (f : Buf T → Nat → Buf T → Nat → C (Buf T)) (code : Buf T → Nat → Nat → Nat → Prog T) : Prop :=
  ∀ x xo b o, (∃ F, Foot F (code x xo b o)) ∧ Good (code x xo b o) ∧ Sim b o (code x xo b o) (fun y => f x xo y 0)

/-- Every block's code is right. -/
def CodeFor (A : BlockMat T) (code : BlockCode T) : Prop := ∀ k, CodeOk (A.blockSpmv k) (code k)

theorem Good.blocks {A : BlockMat T} {code : BlockCode T} (hc : CodeFor A code) (lo hi : Nat) (x : Buf T) (b o : Nat) :
    Good (spmvBlocksP A code lo hi x b o) :=
  Good.seqFor (fun _ _ _ => Good.read (fun _ _ => Good.read (fun _ _ => (hc _ _ _ _ _).2.1)))

theorem Sim.blocks {A : BlockMat T} {code : BlockCode T} (hc : CodeFor A code) (lo hi : Nat) (x : Buf T) (b o : Nat) :
    Sim b o (spmvBlocksP A code lo hi x b o) (fun y => spmvBlocks A lo hi x y 0) :=
  Sim.seqFor (fun _ _ _ => Sim.read (fun _ _ => Sim.read (fun _ _ => (hc _ _ _ _ _).2.2)))

/-! ### Chunks -/

theorem safe_read {α : Type} {Q : Nat → Mem T → Prop} {c : C α} {a : α} {k : α → Prog T} {m : Mem T} (h : c = .ok a) {n : Nat}
    (hk : safe Q n (k a) m) : safe Q n (Prog.read c k) m := by
  subst h; exact hk

theorem put_len {y y' : Buf T} {i : Nat} {v : T} (h : y.put i v = .ok y') : y'.len = y.len := by
  unfold Buf.put at h
  by_cases hi : i < y.len
  · simp only [hi, if_true] at h; cases h; rfl
  · simp only [hi, if_false] at h; cases h

/-- Adding the temporary. -/
theorem exec_addTemp [Add T] {b o t : Nat} {z : Buf T} (n i : Nat) {y y' : Buf T} (hd : Disj (arr b o y) (arr t 0 z))
    (h : loopN (fun i y => do
        let a ← y.get (0 + i)
        let t ← z.get i
        y.put (0 + i) (a + t)) n i y = .ok y') :
    exec (Prog.seqN (fun i => .load (b, o + i) fun a => .load (t, i) fun v => .store (b, o + i) (some (a + v)) (.ret 0)) n i)
      ((arr b o y).union (arr t 0 z)) = .ok (0, (arr b o y').union (arr t 0 z)) ∧ y'.len = y.len := by
  induction n generalizing i y with
  | zero =>
    unfold loopN at h
    cases h
    exact ⟨rfl, rfl⟩
  | succ n ih =>
    unfold loopN at h
    rw [Nat.zero_add] at h
    cases h1 : y.get i with
    | error e => rw [h1] at h; cases h
    | ok a =>
      rw [h1, ok_bind] at h
      cases h2 : z.get i with
      | error e => rw [h2] at h; cases h
      | ok v =>
        rw [h2, ok_bind] at h
        cases h3 : y.put i (a + v) with
        | error e => rw [h3] at h; cases h
        | ok y1 =>
          rw [h3, ok_bind] at h
          obtain ⟨p1, p2⟩ := arr_put (b := b) (o := o) h3
          have g1 := arr_get (b := b) (o := o) h1
          have g2 := arr_get (b := t) (o := 0) h2
          rw [Nat.zero_add] at g2
          have l1 := put_len h3
          have hd' : Disj (arr b o y1) (arr t 0 z) := by
            intro l
            rcases hd l with h' | h'
            · exact Or.inl ((arr_none l1).2 h')
            · exact Or.inr h'
          obtain ⟨ih1, ih2⟩ := ih (i + 1) hd' h
          refine ⟨?_, by rw [ih2, l1]⟩
          unfold Prog.seqN
          rw [exec_seq, exec_load, Mem.union_left (by rw [g1]; simp), g1]
          simp only
          have hb : arr b o y (t, i) = none := by
            rcases hd (t, i) with h' | h'
            · exact h'
            · rw [g2] at h'; cases h'
          rw [exec_load, Mem.union_right hb, g2]
          simp only
          rw [exec_store, Mem.union_left (by rw [g1]; simp), g1]
          simp only [exec_ret, ok_bind]
          rw [← ih1]
          congr 1
          funext l
          by_cases e : l = (b, o + i)
          · subst e
            rw [if_pos rfl, Mem.union_left (by rw [p2]; simp), p2]; simp
          · rw [if_neg e]
            by_cases hn : arr b o y l = none
            · rw [Mem.union_right hn, Mem.union_right ((arr_none l1).2 hn)]
            · rw [Mem.union_left hn, Mem.union_left (fun h' => hn ((arr_none l1).1 h')), p2]; simp [e]

theorem Good.addTemp [Add T] (b o t n : Nat) : Good (addTempP (T := T) b o t n) :=
  Good.seqFor (fun _ _ _ => Good.load (fun _ => Good.load (fun _ => Good.store (Good.ret 0))))

/-- The recursive task under every schedule does what its sequential run does, for any arithmetic. -/
theorem safe_chunk [Add T] [Zero T] {M : Nat} {A : BlockMat T} {code : BlockCode T} (hc : CodeFor A code) (chunks : List Nat)
    (x : Buf T) (bsize : Nat) (fuel first last b o : Nat) (y y' : Buf T) (hlen : y.len = bsize)
    (h : spmvChunk M A chunks x bsize fuel first last y 0 = .ok y') :
    y'.len = bsize ∧ ∀ n, safe (fun _ m => m = arr b o y') n (spmvChunkP M A code chunks x bsize fuel first last b o) (arr b o y) := by
  induction fuel generalizing first last b o y y' with
  | zero => unfold spmvChunk at h; cases h
  | succ fuel ih =>
    unfold spmvChunk at h
    unfold spmvChunkP
    by_cases hb : subM M last first = 1
    · rw [if_pos hb] at h ⊢
      cases h1 : rd chunks first with
      | error e => rw [h1] at h; cases h
      | ok s =>
        rw [h1, ok_bind] at h
        cases h2 : rd chunks last with
        | error e => rw [h2] at h; cases h
        | ok e =>
          rw [h2, ok_bind] at h
          have hB : ∀ k xo (y y' : Buf T), A.blockSpmv k x xo y 0 = .ok y' → y'.len = y.len := fun k xo y y' h =>
            len_of_foot (hc k x xo 0 0).1.choose_spec (hc k x xo 0 0).2.2 h
          refine ⟨?_, fun n => safe_read rfl (safe_read rfl (Good.safe (Good.blocks hc _ _ _ _ _) (Sim.blocks hc _ _ _ _ _) h n))⟩
          rw [← hlen]
          unfold spmvBlocks at h
          by_cases hse : s ≤ e
          · refine loop_len ?_ h
            intro k y y' hk
            cases c1 : A.blockcolInd.get k with
            | error e => rw [c1] at hk; cases hk
            | ok c =>
              rw [c1, ok_bind] at hk
              cases c2 : A.colOff c with
              | error e => rw [c2] at hk; cases hk
              | ok xo => rw [c2, ok_bind] at hk; exact hB _ _ _ _ hk
          · rw [forLoop_empty (by omega)] at h; cases h; rfl
    · rw [if_neg hb] at h ⊢
      dsimp only at h ⊢
      generalize addM M first last / 2 = mid at *
      cases h1 : spmvChunk M A chunks x bsize fuel first mid y 0 with
      | error e => rw [h1] at h; cases h
      | ok y1 =>
        rw [h1, ok_bind] at h
        cases h2 : spmvChunk M A chunks x bsize fuel mid last (Buf.filled bsize 0) 0 with
        | error e => rw [h2] at h; cases h
        | ok z =>
          rw [h2, ok_bind] at h
          obtain ⟨l1, s1⟩ := ih first mid b o y y1 hlen h1
          refine ⟨?_, fun n => ?_⟩
          · rw [← l1]
            refine loop_len ?_ h
            intro k y y' hk
            cases c1 : y.get (0 + k) with
            | error e => rw [c1] at hk; cases hk
            | ok a =>
              rw [c1, ok_bind] at hk
              cases c2 : z.get k with
              | error e => rw [c2] at hk; cases hk
              | ok t => rw [c2, ok_bind] at hk; exact put_len hk
          · have e0 : arr b o y = (arr b o y).union (fun _ => none) := by
              funext l
              by_cases hn : arr b o y l = none
              · rw [Mem.union_right hn, hn]
              · rw [Mem.union_left hn]
            rw [e0]
            refine safe_fork (Qp := fun _ m => m = arr b o y1) (Qq := fun r m => m = arr r 0 z) ?_ n
              (fun l => Or.inr rfl) (s1 n) ?_
            · rintro r t m1 m2 hd rfl rfl n
              have hadd := exec_addTemp (b := b) (o := o) (t := t) (z := z) bsize 0 hd h
              have hz := (ih mid last t 0 _ z rfl h2).1
              refine safe_seq (Q := fun _ m => m = (arr b o y').union (arr t 0 z)) ?_ n
                (safe_mono (fun _ _ h => h.2) (Good.addTemp b o t bsize _ _ _ hadd.1 n))
              rintro r' m rfl n
              have ht : ∀ i, i < bsize → arr t 0 z (t, i) ≠ none := by
                intro i hi hn
                rw [arr_len] at hn
                exact hn ⟨rfl, Nat.zero_le _, by omega⟩
              have hd' : ∀ l, arr t 0 z l ≠ none → arr b o y' l = none := by
                intro l hl
                rcases hd l with h' | h'
                · exact (arr_none hadd.2).2 h'
                · exact absurd h' hl
              refine safe_free (fun i hi hn => ht i hi (Mem.union_none.1 hn).2) (fun n => safe_ret ?_ n) n
              funext l
              by_cases hl : l.1 = t ∧ l.2 < bsize
              · rw [if_pos hl, hd' l (by
                  obtain ⟨a, c⟩ := l
                  obtain ⟨rfl, h2⟩ := hl
                  exact ht c h2)]
              · rw [if_neg hl]
                by_cases hn : arr b o y' l = none
                · rw [Mem.union_right hn, hn, arr_len]
                  intro h'; exact hl ⟨h'.1, by omega⟩
                · rw [Mem.union_left hn]
            · refine safe_alloc (fun t _ n => ?_) n
              have ea : (fun l : Loc => if l.1 = t ∧ l.2 < bsize then some (some (0 : T)) else none) =
                  arr t 0 (Buf.filled bsize 0) := by
                funext l
                unfold arr
                have : (Buf.filled bsize (0 : T)).len = bsize := rfl
                by_cases hl : l.1 = t ∧ l.2 < bsize
                · rw [if_pos hl, if_pos ⟨hl.1, Nat.zero_le _, by rw [this]; omega⟩]; rfl
                · rw [if_neg hl, if_neg]
                  intro h'; rw [this] at h'; exact hl ⟨h'.1, by omega⟩
              rw [ea]
              refine safe_seq (Q := fun _ m => m = arr t 0 z) ?_ n ((ih mid last t 0 _ z rfl h2).2 n)
              rintro r m rfl n
              exact safe_ret rfl n
where
  loop_len {f : Nat → Buf T → C (Buf T)} (hf : ∀ k y y', f k y = .ok y' → y'.len = y.len) {lo hi : Nat} {y y' : Buf T}
      (h : forLoop lo hi y f = .ok y') : y'.len = y.len := by
    have : ∀ n i (y y' : Buf T), loopN f n i y = .ok y' → y'.len = y.len := by
      intro n
      induction n with
      | zero => intro i y y' h; unfold loopN at h; cases h; rfl
      | succ n ih =>
        intro i y y' h
        unfold loopN at h
        cases h1 : f i y with
        | error e => rw [h1] at h; cases h
        | ok y1 =>
          rw [h1, ok_bind] at h
          rw [ih _ _ _ h, hf _ _ _ h1]
    exact this _ _ _ _ h

/-! ### All block-rows -/

theorem shift_window (x y : Nat → T) [Add T] [Mul T] (o : Nat) (l : List (Ent T)) (i : Nat) :
    visit x y (shift o 0 l) (o + i) = visit x (fun i => y (o + i)) (shift 0 0 l) i := by
  rw [visit_eq, visit_eq]
  unfold spmvInOrder accumulate rowEntries shift
  simp only [List.filter_map, List.foldl_map, Function.comp_def, Nat.zero_add]
  congr 2
  funext e
  rw [Bool.eq_iff_iff]; simp

theorem visit_elsewhere [Add T] [Mul T] (x y : Nat → T) (l : List (Ent T)) (i : Nat) (h : ∀ e ∈ l, e.row ≠ i) :
    visit x y l i = y i := by
  rw [visit_eq]
  unfold spmvInOrder rowEntries
  rw [List.filter_eq_nil_iff.2 (by intro e he; simpa using h e he)]
  rfl

section
variable [Add T] [Mul T] {A : BlockMat T} {bc nx : Nat} {fR fC : Nat → Nat} {keys : List Nat}
  {x : Nat → T} {B : Nat → List (Ent T)}

omit [Add T] [Mul T] in
/-- Entries of later or earlier blocks belong to later or earlier rows. -/
theorem allEnts_split (bc : Nat) (fR : Nat → Nat) (keys : List Nat) (B : Nat → List (Ent T)) {m n : Nat} (h : m ≤ n) :
    ∃ rest, allEnts bc fR keys B n = allEnts bc fR keys B m ++ rest ∧
      ∀ e ∈ rest, ∃ k, m ≤ k ∧ k < n ∧ e ∈ shift (fR ((keys[k]?.getD 0) / bc)) 0 (B k) := by
  obtain ⟨d, rfl⟩ : ∃ d, n = m + d := ⟨n - m, by omega⟩
  clear h
  induction d with
  | zero => exact ⟨[], by simp, by simp⟩
  | succ d ih =>
    obtain ⟨rest, h1, h2⟩ := ih
    refine ⟨rest ++ shift (fR ((keys[m + d]?.getD 0) / bc)) 0 (B (m + d)), ?_, ?_⟩
    · rw [← Nat.add_assoc, allEnts_succ, h1, List.append_assoc]
    · intro e he
      rcases List.mem_append.1 he with he | he
      · obtain ⟨k, k1, k2, k3⟩ := h2 e he
        exact ⟨k, k1, by omega, k3⟩
      · exact ⟨m + d, by omega, by omega, he⟩

/-- What block-row `bi` does to its own window of `y`. -/
theorem visit_window (R : BlockRep A bc fR fC keys nx x B) (y : Nat → T) {bi i : Nat} (hbi : bi < A.blockrows)
    (hi : i < fR (bi + 1) - fR bi) :
    visit x y (allEnts bc fR keys B keys.length) (fR bi + i) =
      visit x (fun i => y (fR bi + i)) (shift 0 0 (blocksEnts B (rowPtrOf bc keys bi) (rowPtrOf bc keys (bi + 1)))) i := by
  have hp := rowPtrOf_mono bc keys (Nat.le_succ bi)
  obtain ⟨r2, e2, m2⟩ := allEnts_split bc fR keys B (rowPtrOf_le bc keys (bi + 1))
  obtain ⟨r1, e1, m1⟩ := allEnts_split bc fR keys B (Nat.zero_le (rowPtrOf bc keys bi))
  have e0 : allEnts bc fR keys B 0 = [] := rfl
  have hrow : ∀ k, k < keys.length → ∀ e ∈ shift (fR ((keys[k]?.getD 0) / bc)) 0 (B k),
      ∃ q, q = (keys[k]?.getD 0) / bc ∧ q < A.blockrows ∧ fR q ≤ e.row ∧ e.row < fR (q + 1) := by
    intro k hk e he
    have hg : keys[k]?.getD 0 = keys[k] := by rw [List.getElem?_eq_getElem hk]; rfl
    rw [hg] at he
    have hq := R.range _ (List.getElem_mem hk)
    simp only [shift, List.mem_map] at he
    obtain ⟨e', he', rfl⟩ := he
    have h1 := R.rowsB k hk e' he'
    exact ⟨_, rfl, by rw [hg]; exact hq, by rw [hg]; exact Nat.le_add_right _ _, by rw [hg]; simp only; omega⟩
  rw [e2, visit_append, visit_elsewhere x _ r2 _ ?_, allEnts_row R bi hp (Nat.le_refl _), visit_append, shift_window]
  · congr 1
    funext j
    rw [e1, e0, List.nil_append]
    refine visit_elsewhere x y r1 _ ?_
    intro e he
    obtain ⟨k, -, k2, k3⟩ := m1 e he
    have hk : k < keys.length := Nat.lt_of_lt_of_le k2 (rowPtrOf_le _ _ _)
    obtain ⟨q, hq, q1, q2, q3⟩ := hrow k hk e k3
    rw [List.getElem?_eq_getElem hk] at hq
    have hlt : keys[k] / bc < bi := (getElem_lt_iff keys (· / bc) R.sortedDiv bi k hk).2 k2
    have := R.mono' (show q + 1 ≤ bi by simp at hq; omega) (by omega)
    omega
  · intro e he
    obtain ⟨k, k1, k2, k3⟩ := m2 e he
    obtain ⟨q, hq, q1, q2, q3⟩ := hrow k k2 e k3
    rw [List.getElem?_eq_getElem k2] at hq
    have hlt : ¬ keys[k] / bc < bi + 1 := fun h' => by
      have := (getElem_lt_iff keys (· / bc) R.sortedDiv (bi + 1) k k2).1 h'
      unfold rowPtrOf at k1; omega
    have := R.mono' (show bi + 1 ≤ q by simp at hq; omega) (by omega)
    omega

/-- One block-row, run on its own window only. -/
theorem window_eq (R : BlockRep A bc fR fC keys nx x B) (y : Nat → T) {bi : Nat} (hbi : bi < A.blockrows) (b : Nat) :
    window b (fR bi) (fR (bi + 1)) (visit x y (allEnts bc fR keys B keys.length)) =
      arr b (fR bi) (Buf.full (fR (bi + 1) - fR bi) (visit x (fun i => y (fR bi + i))
        (shift 0 0 (blocksEnts B (rowPtrOf bc keys bi) (rowPtrOf bc keys (bi + 1)))))) := by
  funext l
  rw [window_apply]
  unfold arr
  have hm := R.mono bi hbi
  by_cases hl : l.1 = b ∧ fR bi ≤ l.2 ∧ l.2 < fR (bi + 1)
  · rw [if_pos hl, if_pos ⟨hl.1, hl.2.1, by show _ < _ + (fR (bi + 1) - fR bi); omega⟩]
    have := visit_window R y hbi (i := l.2 - fR bi) (by omega)
    rw [Nat.add_sub_cancel' hl.2.1] at this
    exact congrArg (fun v => some (some v)) this
  · rw [if_neg hl, if_neg]
    intro h'
    have : l.2 < fR bi + (fR (bi + 1) - fR bi) := h'.2.2
    exact hl ⟨h'.1, h'.2.1, by omega⟩

omit [Add T] [Mul T] in
theorem windows_all (h0 : fR 0 = 0) (b : Nat) (y : Nat → T) :
    window b (fR 0) (fR A.blockrows) y = arr b 0 (Buf.full (fR A.blockrows) y) := by
  unfold window
  rw [h0]
  simp only [Nat.sub_zero, Nat.zero_add]

/-- The balanced path under every schedule; no law of `+` or `*` is used. -/
theorem safe_balanced (R : BlockRep A bc fR fC keys nx x B) {code : BlockCode T} (hc : CodeFor A code) (h0 : fR 0 = 0)
    (b : Nat) (y : Nat → T) (n : Nat) :
    safe (fun _ m => m = arr b 0 (Buf.full (fR A.blockrows) (visit x y (allEnts bc fR keys B keys.length)))) n
      (spmvBalancedP A code (Buf.full nx x) b) (arr b 0 (Buf.full (fR A.blockrows) y)) := by
  rw [← windows_all h0, ← windows_all h0]
  refine safe_parFor_windows (Nat.zero_le _) (fun i _ hi => R.mono i hi) (fun bi _ hbi n => ?_) n
  rw [window_eq R y hbi]
  refine safe_read (R.ptr bi (by omega)) (safe_read (R.ptr (bi + 1) (by omega)) (safe_read (R.rowOff bi (by omega)) ?_))
  refine Good.safe (Good.blocks hc _ _ _ _ _) (Sim.blocks hc _ _ _ _ _) ?_ n
  exact spmvBlocks_spec R bi _ _ _ 0 _ (Nat.le_refl _) (rowPtrOf_mono bc keys (Nat.le_succ bi)) (Nat.le_refl _) (by omega)

end

section
variable [AddCommMonoid T] [Mul T] {A : BlockMat T} {bc nx : Nat} {fR fC : Nat → Nat} {keys : List Nat}
  {x : Nat → T} {B : Nat → List (Ent T)}

/-- The chunked path under every schedule. -/
theorem safe_chunked {M : Nat} (R : BlockRep A bc fR fC keys nx x B) {code : BlockCode T} (hc : CodeFor A code) (h0 : fR 0 = 0)
    (b : Nat) (y : Nat → T) (hMr : A.blockrows < M) (hMf : fR A.blockrows < M)
    (P : List (List Nat)) (hP : ∀ bi, bi < A.blockrows → ∃ c, P[bi]? = some c ∧ 2 * c.length ≤ M ∧ 2 ≤ c.length ∧
      c.Pairwise (· ≤ ·) ∧ c.head? = some (rowPtrOf bc keys bi) ∧ c.getLast? = some (rowPtrOf bc keys (bi + 1))) (n : Nat) :
    safe (fun _ m => m = arr b 0 (Buf.full (fR A.blockrows) (visit x y (allEnts bc fR keys B keys.length)))) n
      (Prog.parFor 0 A.blockrows (spmvChunkedRowP M A code P (Buf.full nx x) b)) (arr b 0 (Buf.full (fR A.blockrows) y)) := by
  rw [← windows_all h0, ← windows_all h0]
  refine safe_parFor_windows (Nat.zero_le _) (fun i _ hi => R.mono i hi) (fun bi _ hbi n => ?_) n
  rw [window_eq R y hbi]
  obtain ⟨c, hc1, hcM, hc2, hcm, hch, hcl⟩ := hP bi hbi
  have m := R.mono bi hbi
  have m2 := R.mono' (show bi + 1 ≤ A.blockrows by omega) (Nat.le_refl _)
  have hrd : rd P bi = .ok c := by simp [rd, hc1]
  refine safe_read hrd (safe_read (R.rowOff bi (by omega)) (safe_read (by rw [addM_eq (by omega)]; exact R.rowOff (bi + 1) (by omega)) ?_))
  rw [subM_eq (by omega) m, Nat.mod_eq_of_lt (show c.length < M by omega), subM_eq (by omega) (by omega)]
  have hm := List.pairwise_iff_getElem.1 hcm
  have hh0 : c[0]'(by omega) = rowPtrOf bc keys bi := by
    rw [List.head?_eq_getElem?, List.getElem?_eq_getElem (by omega)] at hch
    simpa using hch
  have hl : c[c.length - 1]'(by omega) = rowPtrOf bc keys (bi + 1) := by
    rw [List.getLast?_eq_getElem?, List.getElem?_eq_getElem (by omega)] at hcl
    simpa using hcl
  have hle1 : ∀ d ∈ c, rowPtrOf bc keys bi ≤ d := by
    intro d hd
    obtain ⟨j, hj, rfl⟩ := List.mem_iff_getElem.1 hd
    rcases Nat.eq_zero_or_pos j with h | h
    · subst h; omega
    · have := hm 0 j (by omega) hj h; omega
  have hle2 : ∀ d ∈ c, d ≤ rowPtrOf bc keys (bi + 1) := by
    intro d hd
    obtain ⟨j, hj, rfl⟩ := List.mem_iff_getElem.1 hd
    rcases Nat.lt_or_ge j (c.length - 1) with h | h
    · have := hm j (c.length - 1) hj (by omega) h; omega
    · have : j = c.length - 1 := by omega
      subst this; omega
  have key := spmvChunk_spec R bi c hcm hcM hle1 hle2 c.length 0 (c.length - 1) (by omega) (by omega) (by omega)
    (fR (bi + 1) - fR bi) 0 (fun i => y (fR bi + i)) (by omega)
  have g0 : c[0]?.getD 0 = rowPtrOf bc keys bi := by
    rw [List.getElem?_eq_getElem (by omega), Option.getD_some, hh0]
  have g1 : c[c.length - 1]?.getD 0 = rowPtrOf bc keys (bi + 1) := by
    rw [List.getElem?_eq_getElem (by omega), Option.getD_some, hl]
  rw [g0, g1] at key
  exact (safe_chunk hc c (Buf.full nx x) (fR (bi + 1) - fR bi) c.length 0 (c.length - 1) b (fR bi) _ _ rfl key).2 n

theorem safe_blocked {M : Nat} (R : BlockRep A bc fR fC keys nx x B) {code : BlockCode T} (hc : CodeFor A code) (h0 : fR 0 = 0)
    (b : Nat) (y : Nat → T) (hMr : A.blockrows < M) (hMf : fR A.blockrows < M) (bal : Bool)
    (P : List (List Nat)) (hP : bal = false → ∀ bi, bi < A.blockrows → ∃ c, P[bi]? = some c ∧ 2 * c.length ≤ M ∧ 2 ≤ c.length ∧
      c.Pairwise (· ≤ ·) ∧ c.head? = some (rowPtrOf bc keys bi) ∧ c.getLast? = some (rowPtrOf bc keys (bi + 1))) (n : Nat) :
    safe (fun _ m => m = arr b 0 (Buf.full (fR A.blockrows) (visit x y (allEnts bc fR keys B keys.length)))) n
      (spmvBlockedP M A code bal P (Buf.full nx x) b) (arr b 0 (Buf.full (fR A.blockrows) y)) := by
  unfold spmvBlockedP
  cases bal with
  | true => exact safe_balanced R hc h0 b y n
  | false => exact safe_chunked R hc h0 b y hMr hMf P (hP rfl) n

end
end Gsb
