/-
The C++ fragment: error outcomes, arrays with bounds and initialisation, unsigned index
arithmetic and `for` loops.  Nothing here is specific to the library.
-/
namespace Gsb

/-- Ways in which a run of the code stops being a defined, successful run. -/
inductive Err where
  /-- access outside an array -/
  | oob
  /-- read of an array cell or variable that was never written -/
  | uninit
  /-- a failed `assert` (asserts are active: the Makefile never defines NDEBUG) -/
  | assertion
  /-- integer division or remainder by zero -/
  | divZero
  /-- a `while` loop of the model used up its iteration budget (theorems that conclude `.ok` show
  that this does not happen) -/
  | budget
  /-- undefined or overflowing operation on machine integers (a shift by 32 or more, `int` overflow) -/
  | ub
  deriving DecidableEq, Repr

/-- A run of a piece of code: a value, or the first error met. -/
abbrev C := Except Err

/-- An array of `len` cells; `none` is a cell that was never written. Cells at or beyond
`len` do not exist: `get` and `put` refuse them whatever `dat` says there. -/
structure Buf (α : Type) where
  len : Nat
  dat : Nat → Option α

namespace Buf
variable {α : Type}

/-- `new T[n]`, `malloc(n * sizeof(T))`: contents indeterminate. -/
def uninit (n : Nat) : Buf α := ⟨n, fun _ => none⟩
/-- `new T[n]()`, `calloc`: every cell holds the given zero. -/
def filled (n : Nat) (z : α) : Buf α := ⟨n, fun _ => some z⟩
/-- An array whose cell `i` holds `f i`. -/
def full (n : Nat) (f : Nat → α) : Buf α := ⟨n, fun i => some (f i)⟩
/-- The array holding exactly the list `l`. -/
def ofList (l : List α) : Buf α := ⟨l.length, fun i => l[i]?⟩

/-- `a[i]` as an rvalue. -/
def get (b : Buf α) (i : Nat) : C α :=
  if i < b.len then
    match b.dat i with
    | some a => .ok a
    | none => .error .uninit
  else .error .oob

/-- `a[i] = v`. -/
def put (b : Buf α) (i : Nat) (v : α) : C (Buf α) :=
  if i < b.len then .ok ⟨b.len, fun k => if k = i then some v else b.dat k⟩
  else .error .oob

theorem get_ok {b : Buf α} {i : Nat} {a : α} (hi : i < b.len) (h : b.dat i = some a) :
    b.get i = .ok a := by simp [get, hi, h]

theorem get_full {n i : Nat} {f : Nat → α} (hi : i < n) : (full n f).get i = .ok (f i) := by
  simp [get, full, hi]

theorem put_ok {b : Buf α} {i : Nat} {a : α} (hi : i < b.len) :
    b.put i a = .ok ⟨b.len, fun k => if k = i then some a else b.dat k⟩ := by simp [put, hi]

theorem put_full {n i : Nat} {f : Nat → α} {a : α} (hi : i < n) :
    (full n f).put i a = .ok (full n (fun k => if k = i then a else f k)) := by
  simp only [put, full, hi, if_true, Except.ok.injEq, mk.injEq, true_and]
  funext k; split <;> rfl

theorem get_filled {n i : Nat} {z : α} (hi : i < n) : (filled n z).get i = .ok z := by
  simp [get, filled, hi]

@[simp] theorem full_len {n : Nat} {f : Nat → α} : (full n f).len = n := rfl
@[simp] theorem full_dat {n : Nat} {f : Nat → α} (i : Nat) : (full n f).dat i = some (f i) := rfl
@[simp] theorem ofList_len {l : List α} : (ofList l).len = l.length := rfl
@[simp] theorem ofList_dat {l : List α} (i : Nat) : (ofList l).dat i = l[i]? := rfl
@[simp] theorem filled_len {n : Nat} {z : α} : (filled n z).len = n := rfl
@[simp] theorem uninit_len {n : Nat} : (uninit n : Buf α).len = n := rfl

/-- The first `n` cells as a list, failing on the first one missing or unwritten. -/
def toList (b : Buf α) (n : Nat) : C (List α) := (List.range n).mapM (fun i => b.get i)

theorem ext' {b c : Buf α} (h1 : b.len = c.len) (h2 : ∀ i, b.dat i = c.dat i) : b = c := by
  cases b; cases c; simp at h1 h2; subst h1; simp; funext i; exact h2 i

end Buf

/-- `array[i]` on an input array given as a list. -/
def rd {α : Type} (l : List α) (i : Nat) : C α :=
  match l[i]? with
  | some a => .ok a
  | none => .error .oob

theorem rd_ok {α : Type} {l : List α} {i : Nat} (h : i < l.length) : rd l i = .ok l[i] := by
  simp [rd, h]

/-- `assert(b)`. -/
def cassert (b : Bool) : C Unit := if b then .ok () else .error .assertion

@[simp] theorem cassert_true : cassert true = .ok () := rfl
theorem cassert_ok {b : Bool} (h : b = true) : cassert b = .ok () := by simp [h]

/-- `a / b` on unsigned integers. -/
def cdiv (a b : Nat) : C Nat := if b = 0 then .error .divZero else .ok (a / b)
/-- `a % b` on unsigned integers. -/
def cmod (a b : Nat) : C Nat := if b = 0 then .error .divZero else .ok (a % b)

theorem cdiv_ok {a b : Nat} (h : 0 < b) : cdiv a b = .ok (a / b) := by
  simp [cdiv, Nat.ne_of_gt h]
theorem cmod_ok {a b : Nat} (h : 0 < b) : cmod a b = .ok (a % b) := by
  simp [cmod, Nat.ne_of_gt h]

/-- `a + b` in an unsigned type with `M` values. -/
def addM (M a b : Nat) : Nat := (a + b) % M
/-- `a - b` in an unsigned type with `M` values. -/
def subM (M a b : Nat) : Nat := (a + (M - b % M)) % M
/-- `a * b` in an unsigned type with `M` values. -/
def mulM (M a b : Nat) : Nat := (a * b) % M

theorem addM_eq {M a b : Nat} (h : a + b < M) : addM M a b = a + b := Nat.mod_eq_of_lt h
theorem mulM_eq {M a b : Nat} (h : a * b < M) : mulM M a b = a * b := Nat.mod_eq_of_lt h
theorem subM_eq {M a b : Nat} (ha : a < M) (h : b ≤ a) : subM M a b = a - b := by
  have hb : b % M = b := Nat.mod_eq_of_lt (by omega)
  unfold subM
  rw [hb]
  have : a + (M - b) = (a - b) + M := by omega
  rw [this, Nat.add_mod_right, Nat.mod_eq_of_lt (by omega)]

/-- The body of a counted loop run `n` times from `i`. -/
def loopN {σ : Type} (f : Nat → σ → C σ) : Nat → Nat → σ → C σ
  | 0, _, s => .ok s
  | n + 1, i, s => do
    let s' ← f i s
    loopN f n (i + 1) s'

/-- `for (IT i = lo; i < hi; i++) s = f(i, s);`.  The counter never wraps: it stops at
`hi`, which is itself a value of the index type. -/
def forLoop {σ : Type} (lo hi : Nat) (s : σ) (f : Nat → σ → C σ) : C σ :=
  loopN f (hi - lo) lo s

/-- `while (cond(s)) s = body(s);` with at most `n` iterations. -/
def whileLoop {σ : Type} (cond : σ → C Bool) (body : σ → C σ) : Nat → σ → C σ
  | 0, _ => .error .budget
  | n + 1, s => do
    let c ← cond s
    if c then
      let s' ← body s
      whileLoop cond body n s'
    else .ok s

section
variable {σ : Type}

@[simp] theorem ok_bind {α β : Type} (a : α) (f : α → C β) : ((Except.ok a : C α) >>= f) = f a := rfl
@[simp] theorem error_bind {α β : Type} (e : Err) (f : α → C β) :
    ((Except.error e : C α) >>= f) = .error e := rfl

/-- A `while` loop that keeps an invariant and decreases a measure ends within its budget. -/
theorem whileLoop_inv {cond : σ → C Bool} {body : σ → C σ} (I : σ → Prop) (μ : σ → Nat)
    (h : ∀ s, I s → ∃ c, cond s = .ok c ∧ (c = true → ∃ s', body s = .ok s' ∧ I s' ∧ μ s' < μ s))
    (n : Nat) (s : σ) (hI : I s) (hμ : μ s < n) :
    ∃ s', whileLoop cond body n s = .ok s' ∧ I s' ∧ cond s' = .ok false := by
  induction n generalizing s with
  | zero => omega
  | succ n ih =>
    obtain ⟨c, hc, hb⟩ := h s hI
    rw [whileLoop, hc, ok_bind]
    cases c with
    | false => exact ⟨s, rfl, hI, hc⟩
    | true =>
      obtain ⟨s', h1, h2, h3⟩ := hb rfl
      obtain ⟨s2, h4, h5⟩ := ih s' h2 (by omega)
      refine ⟨s2, ?_, h5⟩
      rw [if_pos rfl, h1, ok_bind, h4]

theorem forLoop_empty {lo hi : Nat} {s : σ} {f : Nat → σ → C σ} (h : hi ≤ lo) :
    forLoop lo hi s f = .ok s := by
  have : hi - lo = 0 := by omega
  simp [forLoop, this, loopN]

theorem forLoop_step {lo hi : Nat} {s : σ} {f : Nat → σ → C σ} (h : lo < hi) :
    forLoop lo hi s f = (f lo s >>= fun s' => forLoop (lo + 1) hi s' f) := by
  obtain ⟨n, hn⟩ : ∃ n, hi - lo = n + 1 := ⟨hi - lo - 1, by omega⟩
  have h2 : hi - (lo + 1) = n := by omega
  simp [forLoop, hn, h2, loopN]

/-- Loop rule by closed form: the state before iteration `i` is `S i`. -/
theorem forLoop_closed {lo hi : Nat} {f : Nat → σ → C σ} (S : Nat → σ) (hle : lo ≤ hi)
    (step : ∀ i, lo ≤ i → i < hi → f i (S i) = .ok (S (i + 1))) :
    forLoop lo hi (S lo) f = .ok (S hi) := by
  obtain ⟨n, rfl⟩ : ∃ n, hi = lo + n := ⟨hi - lo, by omega⟩
  induction n generalizing lo with
  | zero => exact forLoop_empty (by omega)
  | succ n ih =>
    rw [forLoop_step (by omega), step lo (by omega) (by omega), ok_bind]
    have e : lo + (n + 1) = (lo + 1) + n := by omega
    rw [e]
    exact ih (by omega) (fun i h1 h2 => step i (by omega) (by omega))

theorem forLoop_closed' {lo hi : Nat} {f : Nat → σ → C σ} {s t : σ} (S : Nat → σ) (hle : lo ≤ hi)
    (hs : s = S lo) (ht : S hi = t)
    (step : ∀ i, lo ≤ i → i < hi → f i (S i) = .ok (S (i + 1))) :
    forLoop lo hi s f = .ok t := by
  subst hs ht; exact forLoop_closed S hle step

/-- Loop rule by invariant: total correctness. -/
theorem forLoop_inv {lo hi : Nat} {f : Nat → σ → C σ} {s : σ} (P : Nat → σ → Prop) (hle : lo ≤ hi)
    (h0 : P lo s)
    (step : ∀ i s, lo ≤ i → i < hi → P i s → ∃ s', f i s = .ok s' ∧ P (i + 1) s') :
    ∃ s', forLoop lo hi s f = .ok s' ∧ P hi s' := by
  obtain ⟨n, rfl⟩ : ∃ n, hi = lo + n := ⟨hi - lo, by omega⟩
  induction n generalizing lo s with
  | zero => exact ⟨s, forLoop_empty (by omega), h0⟩
  | succ n ih =>
    obtain ⟨s1, e1, p1⟩ := step lo s (by omega) (by omega) h0
    rw [forLoop_step (by omega), e1, ok_bind]
    have e : lo + (n + 1) = (lo + 1) + n := by omega
    rw [e]
    exact ih p1 (by omega) (fun i s h1 h2 => step i s (by omega) (by omega))

theorem forLoop_split {lo mid hi : Nat} {f : Nat → σ → C σ} {s : σ} (h1 : lo ≤ mid) (h2 : mid ≤ hi) :
    forLoop lo hi s f = (forLoop lo mid s f >>= fun s' => forLoop mid hi s' f) := by
  obtain ⟨n, rfl⟩ : ∃ n, mid = lo + n := ⟨mid - lo, by omega⟩
  induction n generalizing lo s with
  | zero => rw [forLoop_empty (show lo + 0 ≤ lo by omega)]; rfl
  | succ n ih =>
    rw [forLoop_step (by omega), forLoop_step (show lo < lo + (n+1) by omega)]
    have e : lo + (n + 1) = (lo + 1) + n := by omega
    cases h : f lo s with
    | error e => rfl
    | ok s' =>
      simp only [ok_bind]
      rw [e]
      exact ih (by omega) (by omega)

/-- A loop that visits the array slice `[lo, hi)` of `l` in order is a left fold. `φ` relates an
abstract state to the state of the loop. -/
theorem forLoop_slice {α τ : Type} {lo hi : Nat} {f : Nat → σ → C σ} (l : List α)
    (φ : τ → σ) (g : τ → α → τ) (t : τ) (hle : lo ≤ hi) (hhi : hi ≤ l.length)
    (step : ∀ j t (h : j < l.length), lo ≤ j → j < hi → f j (φ t) = .ok (φ (g t l[j]))) :
    forLoop lo hi (φ t) f = .ok (φ (((l.take hi).drop lo).foldl g t)) := by
  obtain ⟨n, rfl⟩ : ∃ n, hi = lo + n := ⟨hi - lo, by omega⟩
  induction n generalizing lo t with
  | zero =>
    rw [forLoop_empty (by omega), List.drop_eq_nil_of_le (by simp; omega)]; rfl
  | succ n ih =>
    rw [forLoop_step (by omega), step lo t (by omega) (by omega) (by omega), ok_bind]
    have e : lo + (n + 1) = (lo + 1) + n := by omega
    have hlen : lo < (l.take (lo + (n + 1))).length := by simp; omega
    rw [List.drop_eq_getElem_cons hlen, List.foldl_cons]
    simp only [List.getElem_take]
    have := ih (lo := lo + 1) (g t l[lo]) (by omega) (by omega)
      (fun j s h h1 h2 => step j s h (by omega) (by omega))
    rw [← e] at this
    exact this

/-- The same for the whole list. -/
theorem forLoop_list {α τ : Type} {f : Nat → σ → C σ} (l : List α)
    (φ : τ → σ) (g : τ → α → τ) (t : τ)
    (step : ∀ j t (h : j < l.length), f j (φ t) = .ok (φ (g t l[j]))) :
    forLoop 0 l.length (φ t) f = .ok (φ (l.foldl g t)) := by
  have := forLoop_slice (f := f) l φ g t (Nat.zero_le _) (Nat.le_refl _)
    (fun j t h _ _ => step j t h)
  simpa using this

end

end Gsb
