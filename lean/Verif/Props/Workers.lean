import Verif.Proof.Result
import Verif.Props.Csbr
import Verif.Props.Cgbr
/-
C84: what the number of threads at the time of the conversion decides.
-/
namespace Gsb
variable {T : Type}

/-! ### The partition of block-rows -/

/-- Did it succeed? -/
def outcome {α : Type} (c : C α) : C Unit := c.map fun _ => ()

theorem outcome_bind {α β α' β' : Type} {c : C α} {c' : C α'} {f : α → C β} {f' : α' → C β'} (h : outcome c = outcome c')
    (hf : ∀ a a', outcome (f a) = outcome (f' a')) : outcome (c >>= f) = outcome (c' >>= f') := by
  cases c <;> cases c'
  · simpa [outcome, Except.map] using h
  · simp [outcome, Except.map] at h
  · simp [outcome, Except.map] at h
  · exact hf _ _

theorem outcome_forLoop {σ τ : Type} (lo hi : Nat) (s : σ) (t : τ) (f : Nat → σ → C σ) (g : Nat → τ → C τ)
    (h : ∀ i s t, outcome (f i s) = outcome (g i t)) : outcome (forLoop lo hi s f) = outcome (forLoop lo hi t g) := by
  unfold forLoop
  generalize hi - lo = n
  induction n generalizing lo s t with
  | zero => rfl
  | succ n ih => exact outcome_bind (h lo s t) fun a a' => ih (lo + 1) a a'

theorem outcome_partitionInit (M w w' : Nat) (hw : 0 < w) (hw' : 0 < w') (A : BlockMat T) :
    outcome (partitionInit M w A) = outcome (partitionInit M w' A) := by
  refine outcome_forLoop _ _ _ _ _ _ fun br l l' => ?_
  cases A.blockrowPtr.get br with
  | error e => rfl
  | ok lo =>
    cases A.blockrowPtr.get (br + 1) with
    | error e => rfl
    | ok hi =>
      simp only [ok_bind]
      refine outcome_bind ?_ fun _ _ => rfl
      unfold partitionBlockrow
      rw [cdiv_ok (by omega), cdiv_ok (by omega), ok_bind, ok_bind]
      refine outcome_bind (outcome_forLoop _ _ _ _ _ _ fun b s t => ?_) fun _ _ => rfl
      cases A.blockNnz b with
      | error e => rfl
      | ok n => simp only [ok_bind]; split <;> split <;> rfl

theorem bind_of_outcome {α β : Type} {c c' : C α} (h : outcome c = outcome c') {f : α → C β} (hf : ∀ a a', f a = f a') :
    (c >>= f) = (c' >>= f) := by
  cases c <;> cases c'
  · simpa [outcome, Except.map] using h
  · simp [outcome, Except.map] at h
  · simp [outcome, Except.map] at h
  · exact hf _ _

section
variable (M w w' : Nat) (hw : 0 < w) (hw' : 0 < w') (es : List (Element T)) (rows columns : Nat)
  (offR : List Nat) (blockrows : Nat) (offC : List Nat) (blockcols : Nat)
include hw hw'

/-- **C84** for CSBR: for every input whatever, converting with one number of threads or another and then multiplying, adding into any
`y`, gives the same vector (bit for bit), or the same failure; and the input array is left the same. -/
theorem C84_csbr [Add T] [Mul T] [Zero T] (x y : Buf T) :
    (do let r ← cooToCsbr M w es rows columns offR blockrows offC blockcols
        let y ← r.1.spmv M x y
        .ok (y, r.2) : C (Buf T × List (Element T))) =
      (do let r ← cooToCsbr M w' es rows columns offR blockrows offC blockcols
          let y ← r.1.spmv M x y
          .ok (y, r.2)) := by
  unfold cooToCsbr csbrBuild
  simp only [bind_assoc, ok_bind]
  refine bind_congr fun es => bind_congr fun n => bind_congr fun _ => bind_congr fun s => bind_congr fun blocks =>
    bind_congr fun brp => bind_congr fun t => bind_congr fun _ => ?_
  exact bind_of_outcome (outcome_partitionInit M w w' hw hw' _) fun _ _ => rfl

/-- **C84** for CGBR: with another number of threads the conversion succeeds alike, leaves the same input array, makes the same blocks
and takes the same decision about balance.  If the matrix is balanced the whole object is the same.  (`A.spmvSerial` only uses the
blocks.) -/
theorem C84_cgbr [Add T] [Mul T] [Zero T] (S : Nat) (choose : Nat → Nat → Nat → BlockChoice) (heavy : Nat → Nat → List Nat → Bool)
    (A : Cgbr T) (es' : List (Element T))
    (h : cooToCgbr M S w choose heavy es rows columns offR blockrows offC blockcols = .ok (A, es')) :
    ∃ A', cooToCgbr M S w' choose heavy es rows columns offR blockrows offC blockcols = .ok (A', es') ∧
      A'.base = A.base ∧ A'.balanced = A.balanced ∧ (A.balanced = true → A' = A) ∧
      ∀ x y, A'.spmvSerial M x y = A.spmvSerial M x y := by
  unfold cooToCgbr at h ⊢
  obtain ⟨e1, h1, h⟩ := bind_ok h
  obtain ⟨n, h2, h⟩ := bind_ok h
  obtain ⟨u, h3, h⟩ := bind_ok h
  obtain ⟨r, h4, h⟩ := bind_ok h
  obtain ⟨b, h5, h⟩ := bind_ok h
  simp only [h1, ok_bind, h2, h3, h4, h5]
  cases b with
  | true =>
    simp only [if_true, ok_bind] at h ⊢
    injection h with h
    injection h with hA hes
    subst hA hes
    exact ⟨_, rfl, rfl, rfl, fun _ => rfl, fun _ _ => rfl⟩
  | false =>
    simp only [Bool.false_eq_true, if_false] at h ⊢
    obtain ⟨p, h6, h⟩ := bind_ok h
    injection h with h
    injection h with hA hes
    subst hA hes
    have := outcome_partitionInit M w w' hw hw' (Cgbr.toBlockMat M r.1)
    rw [h6] at this
    cases hp : partitionInit M w' (Cgbr.toBlockMat M r.1) with
    | error e => rw [hp] at this; simp [outcome, Except.map] at this
    | ok p' => exact ⟨⟨r.1, false, p'⟩, rfl, rfl, rfl, fun h => by simp at h, fun _ _ => rfl⟩

/-- **C84** for CGBR2, whatever the factory; multiplying without chunks (`balanced`) gives the same. -/
theorem C84_cgbr2 (factory : MakeBlock (BlockObj T) T) (A : Cgbr2 T) (es' : List (Element T))
    (h : cgbr2Create M w factory es rows columns offR blockrows offC blockcols = .ok (A, es')) :
    ∃ A', cgbr2Create M w' factory es rows columns offR blockrows offC blockcols = .ok (A', es') ∧ A'.base = A.base ∧
      ∀ [Add T] [Zero T] (x y : Buf T), A'.spmv M true x y = A.spmv M true x y := by
  unfold cgbr2Create at h ⊢
  obtain ⟨u, h3, h⟩ := bind_ok h
  obtain ⟨e1, h1, h⟩ := bind_ok h
  obtain ⟨r, h4, h⟩ := bind_ok h
  obtain ⟨p, h6, h⟩ := bind_ok h
  simp only [h3, ok_bind, h1, h4]
  injection h with h
  injection h with hA hes
  subst hA hes
  have := outcome_partitionInit M w w' hw hw' (Cgbr2.toBlockMat r.1)
  rw [h6] at this
  cases hp : partitionInit M w' (Cgbr2.toBlockMat r.1) with
  | error e => rw [hp] at this; simp [outcome, Except.map] at this
  | ok p' => exact ⟨⟨r.1, p'⟩, rfl, rfl, fun _ _ => rfl⟩

end

end Gsb
