import Verif.Par.Compose
import Verif.Props.Schedule
/-
C87: several multiplications at the same time, and one after the other.
-/
namespace Gsb
variable {T : Type}

/-! ### Specification -/

/-- One call `y += …`: the program run on the array that holds `y`, and what `y` is afterwards. -/
structure Call (T : Type) where
  prog : Nat → Prog T
  effect : (Nat → T) → (Nat → T)

/-- Alone, the call does that on every schedule, for every `y` of `rows` values. -/
def Call.Works (c : Call T) (rows : Nat) : Prop := ∀ y, EverySchedule c.prog rows y (c.effect y)

/-- One thread: its calls one after the other, all on the array `Y`. -/
def callsInTurn (Y : Nat) : List (Call T) → Prog T
  | [] => .ret 0
  | c :: cs => (c.prog Y).seq (fun _ => callsInTurn Y cs)

/-- What the thread's calls, one after the other, make of `y`. -/
def effectInTurn (y : Nat → T) (cs : List (Call T)) : Nat → T := cs.foldl (fun z c => c.effect z) y

/-- The vectors of threads `i, …, i + n - 1`: thread `j`'s, of `rows j` values `y j`, is the array `Y j`. -/
def vectorsFrom (Y rows : Nat → Nat) (y : Nat → Nat → T) : Nat → Nat → Mem T
  | 0, _ => Mem.empty
  | n + 1, i => (arr (Y i) 0 (Buf.full (rows i) (y i))).union (vectorsFrom Y rows y n (i + 1))

/-- The vectors of threads `0, …, n - 1`. -/
def vectors (n : Nat) (Y rows : Nat → Nat) (y : Nat → Nat → T) : Mem T := vectorsFrom Y rows y n 0

/-- No two of the threads `0, …, n - 1` have the same vector. -/
def OwnVectors (n : Nat) (Y : Nat → Nat) : Prop := ∀ i j, i < j → j < n → Y i ≠ Y j

/-! ### Lemmas -/

theorem arr_other {b o : Nat} {y : Buf T} {l : Loc} (h : l.1 ≠ b) : arr b o y l = none := if_neg (fun e => h e.1)

theorem vectorsFrom_none {Y rows : Nat → Nat} {y : Nat → Nat → T} {l : Loc} (n i : Nat)
    (h : ∀ j, i ≤ j → j < i + n → l.1 ≠ Y j) : vectorsFrom Y rows y n i l = none := by
  induction n generalizing i with
  | zero => rfl
  | succ n ih =>
    unfold vectorsFrom
    rw [Mem.union_none]
    exact ⟨arr_other (h i (Nat.le_refl _) (by omega)), ih (i + 1) (fun j h1 h2 => h j (by omega) (by omega))⟩

theorem vectorsFrom_disj {Y rows : Nat → Nat} {y : Nat → Nat → T} {b : Nat} {z : Buf T} (n i : Nat)
    (h : ∀ j, i ≤ j → j < i + n → b ≠ Y j) : Disj (arr b 0 z) (vectorsFrom Y rows y n i) := by
  intro l
  by_cases e : l.1 = b
  · right
    exact vectorsFrom_none n i (fun j h1 h2 => by rw [e]; exact h j h1 h2)
  · exact .inl (arr_other e)

/-- The memory `vectors` describes: value `k` of thread `i`'s vector is in cell `k` of the array `Y i`. -/
theorem vectors_at {n : Nat} {Y rows : Nat → Nat} {y : Nat → Nat → T} (hY : OwnVectors n Y) {i k : Nat} (hi : i < n)
    (hk : k < rows i) : vectors n Y rows y (Y i, k) = some (some (y i k)) := by
  have go : ∀ m j, j ≤ i → i < j + m → j + m ≤ n → vectorsFrom Y rows y m j (Y i, k) = some (some (y i k)) := by
    intro m
    induction m with
    | zero => intro j h1 h2; omega
    | succ m ih =>
      intro j h1 h2 h3
      unfold vectorsFrom
      by_cases e : j = i
      · subst e
        have : arr (Y j) 0 (Buf.full (rows j) (y j)) (Y j, k) = some (some (y j k)) := by
          unfold arr
          rw [if_pos ⟨rfl, Nat.zero_le _, by show k < 0 + rows j; omega⟩]
          rfl
        rw [Mem.union_left (by rw [this]; simp), this]
      · rw [Mem.union_right (arr_other (fun h => hY j i (by omega) hi h.symm))]
        exact ih (j + 1) (by omega) (by omega) (by omega)
  exact go n 0 (Nat.zero_le _) (by omega) (by omega)

theorem vectorsFrom_finite {Y rows : Nat → Nat} {y : Nat → Nat → T} (n i : Nat) : FiniteMem (vectorsFrom Y rows y n i) := by
  induction n generalizing i with
  | zero => exact finiteMem_empty
  | succ n ih => exact finiteMem_union (ih (i + 1))

theorem finiteMem_both {m F : Mem T} (h : FiniteMem m) (hf : FiniteMem F) : FiniteMem (m.union F) := by
  obtain ⟨B, h⟩ := h
  obtain ⟨B', h'⟩ := hf
  exact ⟨max B B', fun b i hb => Mem.union_none.2 ⟨h b i (by omega), h' b i (by omega)⟩⟩

theorem EverySchedule.safe {p : Nat → Prog T} {rows : Nat} {y y' : Nat → T} (h : EverySchedule p rows y y') (Y n : Nat) :
    Gsb.safe (fun _ m => m = arr Y 0 (Buf.full rows y')) n (p Y) (arr Y 0 (Buf.full rows y)) := by
  have := h Y Mem.empty (disj_empty _) finiteMem_empty
  rw [Mem.union_empty, Mem.union_empty] at this
  exact safe_of_allSchedules n this

/-- One call and then another. -/
theorem EverySchedule.seq {p q : Nat → Prog T} {rows : Nat} {y y1 y2 : Nat → T} (h : EverySchedule p rows y y1)
    (h' : EverySchedule q rows y1 y2) : EverySchedule (fun Y => (p Y).seq (fun _ => q Y)) rows y y2 :=
  everySchedule_of_safe (fun Y n => safe_seq (fun r m hm n => by
    have hm : m = _ := hm
    subst hm; exact h'.safe Y n) n (h.safe Y n))

/-- **C87, one thread.**  Calls one after the other on one vector, each of which may itself use threads. -/
theorem C87_in_turn (rows : Nat) (cs : List (Call T)) (h : ∀ c ∈ cs, c.Works rows) (y : Nat → T) :
    EverySchedule (fun Y => callsInTurn Y cs) rows y (effectInTurn y cs) := by
  induction cs generalizing y with
  | nil => exact everySchedule_of_safe (fun Y n => safe_ret rfl n)
  | cons c cs ih =>
    exact EverySchedule.seq (h c (List.mem_cons_self ..) y) (ih (fun d hd => h d (List.mem_cons_of_mem _ hd)) (c.effect y))

theorem safe_vectors {Y rows : Nat → Nat} {y y' : Nat → Nat → T} {p : Nat → Prog T} (n i : Nat)
    (hY : ∀ j k, i ≤ j → j < k → k < i + n → Y j ≠ Y k)
    (h : ∀ j, i ≤ j → j < i + n → ∀ s,
      safe (fun _ m => m = arr (Y j) 0 (Buf.full (rows j) (y' j))) s (p j) (arr (Y j) 0 (Buf.full (rows j) (y j)))) (s : Nat) :
    safe (fun _ m => m = vectorsFrom Y rows y' n i) s (Prog.parN p n i) (vectorsFrom Y rows y n i) := by
  induction n generalizing i s with
  | zero => exact safe_ret rfl s
  | succ n ih =>
    have hd : ∀ j, i + 1 ≤ j → j < i + 1 + n → Y i ≠ Y j := fun j h1 h2 => hY i j (Nat.le_refl _) (by omega) (by omega)
    refine safe_fork (Qp := fun _ m => m = arr (Y i) 0 (Buf.full (rows i) (y' i)))
      (Qq := fun _ m => m = vectorsFrom Y rows y' n (i + 1)) ?_ s (vectorsFrom_disj n (i + 1) hd) (h i (Nat.le_refl _) (by omega) s)
      (ih (i + 1) (fun j k h1 h2 h3 => hY j k (by omega) h2 (by omega)) (fun j h1 h2 => h j (by omega) (by omega)) s)
    rintro r r' m1 m2 - rfl rfl t
    exact safe_ret rfl t

/-- **C87.**  `n` threads at the same time, each making any calls one after the other on a vector of its own — matrices,
formats and vectors `x` may be shared.  On every schedule of all their threads nothing races, nothing is undefined, all of
it ends, and every vector is what its own thread's calls, alone, make of it; nothing else has changed. -/
theorem C87_threads (n : Nat) (Y rows : Nat → Nat) (calls : Nat → List (Call T)) (y : Nat → Nat → T)
    (hY : OwnVectors n Y) (h : ∀ i, i < n → ∀ c ∈ calls i, c.Works (rows i))
    (F : Mem T) (hd : Disj (vectors n Y rows y) F) (hf : FiniteMem F) :
    AllSchedules (Prog.parFor 0 n (fun i => callsInTurn (Y i) (calls i))) ((vectors n Y rows y).union F)
      ((vectors n Y rows (fun i => effectInTurn (y i) (calls i))).union F) := by
  refine allSchedules_of_safe hd (finiteMem_both (vectorsFrom_finite n 0) hf) (fun s => ?_)
  exact safe_vectors n 0 (fun j k _ h1 h2 => hY j k h1 (by omega)) (fun j _ h1 t =>
    (C87_in_turn (rows j) (calls j) (h j (by omega)) (y j)).safe (Y j) t) s

/-! ### One matrix, many threads -/

/-- **One matrix used by many threads.**  `mul x Y` is the multiplication by `x` into array `Y`, `prod x y` what `y` is
afterwards.  `n` threads, thread `i` multiplying by each of the vectors `xs i` in turn into its own vector `y i`. -/
def SharedByThreads (rows : Nat) (mul : (Nat → T) → Nat → Prog T) (prod : (Nat → T) → (Nat → T) → (Nat → T)) : Prop :=
  ∀ (n : Nat) (Y : Nat → Nat) (xs : Nat → List (Nat → T)) (y : Nat → Nat → T) (F : Mem T), OwnVectors n Y →
    Disj (vectors n Y (fun _ => rows) y) F → FiniteMem F →
    AllSchedules (Prog.parFor 0 n (fun i => callsInTurn (Y i) ((xs i).map (fun x => ⟨mul x, prod x⟩))))
      ((vectors n Y (fun _ => rows) y).union F)
      ((vectors n Y (fun _ => rows) (fun i => (xs i).foldl (fun z x => prod x z) (y i))).union F)

theorem sharedByThreads_of {rows : Nat} {mul : (Nat → T) → Nat → Prog T} {prod : (Nat → T) → (Nat → T) → (Nat → T)}
    (h : ∀ x y, EverySchedule (mul x) rows y (prod x y)) : SharedByThreads rows mul prod := by
  intro n Y xs y F hY hd hf
  have := C87_threads n Y (fun _ => rows) (fun i => (xs i).map (fun x => ⟨mul x, prod x⟩)) y hY
    (fun i _ c hc => by
      obtain ⟨x, -, rfl⟩ := List.mem_map.1 hc
      exact h x) F hd hf
  simpa only [effectInTurn, List.foldl_map] using this

/-- A constructor called twice on the same arguments returns the same object. -/
theorem sharedByThreads_of_made {α ε : Type} {rows : Nat} {made : C (α × List ε)} {mul : α → (Nat → T) → Nat → Prog T}
    {prod : (Nat → T) → (Nat → T) → (Nat → T)} [Nonempty T]
    (h : ∀ x y : Nat → T, ∃ A es', made = .ok (A, es') ∧ EverySchedule (mul A x) rows y (prod x y)) :
    ∃ A es', made = .ok (A, es') ∧ SharedByThreads rows (mul A) prod := by
  obtain ⟨t⟩ := ‹Nonempty T›
  obtain ⟨A, es', e, -⟩ := h (fun _ => t) (fun _ => t)
  refine ⟨A, es', e, sharedByThreads_of (fun x y => ?_)⟩
  obtain ⟨A2, es2, e2, h2⟩ := h x y
  rw [e] at e2
  cases e2
  exact h2

section
variable [Nonempty T] [Add T] [Mul T]

theorem C87_csr {ε : Type} [NZ ε T] (M rows columns : Nat) (es : List ε)
    (hnnz : es.length < M) (hrows : rows + 1 < M) (hcols : columns < M) (hin : InRange (ents es) rows columns)
    (nx : Nat) (hnx : columns ≤ nx) :
    ∃ A es', cooToCsr M es rows columns = .ok (A, es') ∧
      SharedByThreads rows (fun x Y => A.spmvP (Buf.full nx x) 0 Y 0) (spmvExact (ents es)) :=
  sharedByThreads_of_made (mul := fun (A : Csr T) x Y => A.spmvP (Buf.full nx x) 0 Y 0)
    (C16_csr M rows columns es hnnz hrows hcols hin nx hnx)

theorem C87_csr2 {ε : Type} [NZ ε T] (M rows columns : Nat) (es : List ε)
    (hnnz : es.length < M) (hrows : rows + 1 < M) (hin : InRange (ents es) rows columns) (nx : Nat) (hnx : columns ≤ nx) :
    ∃ A es', cooToCsr2 M es rows columns = .ok (A, es') ∧
      SharedByThreads rows (fun x Y => A.spmvP (Buf.full nx x) Y) (spmvExact (ents es)) :=
  sharedByThreads_of_made (mul := fun (A : Csr2 T) x Y => A.spmvP (Buf.full nx x) Y)
    (C16_csr2 M rows columns es hnnz hrows hin nx hnx)

theorem C87_cswr {ε : Type} [NZ ε T] (M S rows columns width : Nat) (es : List ε)
    (hw : 0 < width) (hwS : width ≤ S) (hnnz : es.length < M) (hrows : rows + width < M)
    (hin : InRange (ents es) rows columns) :
    ∃ A es', cooToCswr M S es rows columns width = .ok (A, es') ∧
      SharedByThreads rows (fun x Y => A.spmvP M (Buf.full columns x) Y) (spmvExact (ents es)) :=
  sharedByThreads_of_made (mul := fun (A : Cswr T) x Y => A.spmvP M (Buf.full columns x) Y)
    (C17_cswr M S rows columns width es hw hwS hnnz hrows hin)

theorem C87_csbr [Zero T] (M workers rows columns : Nat) (es : List (Element T))
    (offR : List Nat) (blockrows : Nat) (offC : List Nat) (blockcols : Nat)
    (PR : Partition offR blockrows rows) (PC : Partition offC blockcols columns)
    (hw : 0 < workers) (hne : es ≠ []) (hlen : es.length < M) (hgrid : blockrows * blockcols < M)
    (hrows : rows + 1 < M) (hcols : columns < M) (hbr : blockrows ≤ rows) (hbc : blockcols ≤ columns)
    (hin : InRange (ents es) rows columns) (nx : Nat) (hnx : columns ≤ nx) :
    ∃ A es', cooToCsbr M workers es rows columns offR blockrows offC blockcols = .ok (A, es') ∧
      SharedByThreads rows (fun x Y => A.spmvP M (Buf.full nx x) Y) (spmvExact (ents es)) :=
  sharedByThreads_of_made (mul := fun (A : Csbr T) x Y => A.spmvP M (Buf.full nx x) Y)
    (C17_csbr M workers rows columns es offR blockrows offC blockcols PR PC hw hne hlen hgrid hrows hcols hbr hbc hin nx hnx)

theorem C87_csbr2 (M rows columns : Nat) (es : List (Element T))
    (offR : List Nat) (blockrows : Nat) (offC : List Nat) (blockcols : Nat)
    (PR : Partition offR blockrows rows) (PC : Partition offC blockcols columns)
    (hne : es ≠ []) (hlen : es.length < M) (hgrid : blockrows * blockcols < M)
    (hrows : rows + 1 < M) (hcols : columns < M) (hbr : blockrows ≤ rows) (hbc : blockcols ≤ columns)
    (hin : InRange (ents es) rows columns) (nx : Nat) (hnx : columns ≤ nx) :
    ∃ A es', cooToCsbr2 M es rows columns offR blockrows offC blockcols = .ok (A, es') ∧
      SharedByThreads rows (fun x Y => A.spmvP M (Buf.full nx x) Y) (spmvExact (ents es)) :=
  sharedByThreads_of_made (mul := fun (A : Csbr2 T) x Y => A.spmvP M (Buf.full nx x) Y)
    (C17_csbr2 M rows columns es offR blockrows offC blockcols PR PC hne hlen hgrid hrows hcols hbr hbc hin nx hnx)

theorem C87_csbr3 (M S rows columns bs : Nat) (es : List (Element T))
    (hbs : 0 < bs) (hS : bs ≤ S) (hne : es ≠ []) (hlen : es.length + 1 < M)
    (hgrid : ((rows + bs - 1) / bs) * ((columns + bs - 1) / bs) < M)
    (hrows : rows + bs < M) (hcols : columns + bs < M) (hin : InRange (ents es) rows columns)
    (nx : Nat) (hnx : columns ≤ nx) :
    ∃ A es', cooToCsbr3 M S es rows columns bs = .ok (A, es') ∧
      SharedByThreads rows (fun x Y => A.spmvP M (Buf.full nx x) Y) (spmvExact (ents es)) :=
  sharedByThreads_of_made (mul := fun (A : Csbr3 T) x Y => A.spmvP M (Buf.full nx x) Y)
    (C17_csbr3 M S rows columns bs es hbs hS hne hlen hgrid hrows hcols hin nx hnx)

end

section
variable [NonUnitalNonAssocSemiring T]

theorem C87_cgbr (M S B workers rows columns : Nat) (choose : Nat → Nat → Nat → BlockChoice)
    (heavy : Nat → Nat → List Nat → Bool) (es : List (Element T))
    (offR : List Nat) (blockrows : Nat) (offC : List Nat) (blockcols : Nat)
    (PR : Partition offR blockrows rows) (PC : Partition offC blockcols columns)
    (hBS : B ≤ S) (hSR : BlocksAtMost offR B) (hSC : BlocksAtMost offC B)
    (hdense : ∀ rs cs n, rs ≤ B → cs ≤ B → n ≤ es.length → choose rs cs n = .dense → rs * cs < M)
    (hdup : (∀ rs cs n, choose rs cs n ≠ .dense) ∨ Distinct (ents es))
    (hw : 0 < workers) (hne : es ≠ []) (hlen : 2 * (es.length + 2) ≤ M) (hgrid : blockrows * blockcols < M)
    (hrows : rows + 1 < M) (hcols : columns < M) (hbr : blockrows ≤ rows) (hbc : blockcols ≤ columns)
    (hin : InRange (ents es) rows columns) (nx : Nat) (hnx : columns ≤ nx) :
    ∃ A es', cooToCgbr M S workers choose heavy es rows columns offR blockrows offC blockcols = .ok (A, es') ∧
      SharedByThreads rows (fun x Y => A.spmvP M (Buf.full nx x) Y) (spmvSum (ents es)) :=
  sharedByThreads_of_made (mul := fun (A : Cgbr T) x Y => A.spmvP M (Buf.full nx x) Y)
    (C18_cgbr M S B workers rows columns choose heavy es offR blockrows offC blockcols PR PC hBS hSR hSC hdense hdup hw hne hlen
      hgrid hrows hcols hbr hbc hin nx hnx)

theorem C87_cgbr2 (M S B workers rows columns : Nat) (choose : Nat → Nat → Nat → FactoryChoice)
    (D : Prop) (es : List (Element T))
    (offR : List Nat) (blockrows : Nat) (offC : List Nat) (blockcols : Nat)
    (PR : Partition offR blockrows rows) (PC : Partition offC blockcols columns)
    (hBS : B ≤ S) (hSR : BlocksAtMost offR B) (hSC : BlocksAtMost offC B)
    (hdense : ∀ rs cs n, rs ≤ B → cs ≤ B → n < M → choose rs cs n = .dense → rs * cs < M ∧ D)
    (hdup : D → Distinct (ents es))
    (hw : 0 < workers) (hne : es ≠ []) (hlen : 2 * (es.length + 2) ≤ M) (hgrid : blockrows * blockcols < M)
    (hrows : rows + 1 < M) (hcols : columns < M) (hbr : blockrows ≤ rows) (hbc : blockcols ≤ columns)
    (hin : InRange (ents es) rows columns) (nx : Nat) (hnx : columns ≤ nx) (balanced : Bool) :
    ∃ A es', cgbr2Create M workers (factoryDefault M S choose) es rows columns offR blockrows offC blockcols = .ok (A, es') ∧
      SharedByThreads rows (fun x Y => A.spmvP M balanced (Buf.full nx x) Y) (spmvSum (ents es)) :=
  sharedByThreads_of_made (mul := fun (A : Cgbr2 T) x Y => A.spmvP M balanced (Buf.full nx x) Y)
    (C18_cgbr2 M S B workers rows columns choose D es offR blockrows offC blockcols PR PC hBS hSR hSC hdense hdup hw hne hlen
      hgrid hrows hcols hbr hbc hin nx hnx balanced)

end

/-! ### The same vector -/

/-- Two calls at the same time into the *same* vector. -/
def bothInto (c : Call T) (Y : Nat) : Prog T := .fork (c.prog Y) (c.prog Y) (fun _ => .ret 0)

theorem arr_inj {Y rows : Nat} {y y' : Nat → T} {F : Mem T}
    (h : (arr Y 0 (Buf.full rows y)).union F = (arr Y 0 (Buf.full rows y')).union F) (i : Nat) (hi : i < rows) : y i = y' i := by
  have key : ∀ z : Nat → T, (arr Y 0 (Buf.full rows z)).union F (Y, i) = some (some (z i)) := by
    intro z
    have : arr Y 0 (Buf.full rows z) (Y, i) = some (some (z i)) := by
      unfold arr
      rw [if_pos ⟨rfl, Nat.zero_le _, by show i < 0 + rows; omega⟩]
      rfl
    rw [Mem.union_left (by rw [this]; simp), this]
  have := congrFun h (Y, i)
  rw [key, key] at this
  exact Option.some.inj (Option.some.inj this)

theorem reach_end {s : Prog T × Mem T} {p : Prog T} {m m' : Mem T} (h : AllSchedules p m m') (hr : Reach (p, m) s) :
    ∃ r f, Reach s (.ret r, f) := by
  have acc : Acc (fun s' s : Prog T × Mem T => Step s s') s := by
    generalize e : (p, m) = t at hr
    induction hr with
    | refl => subst e; exact h.terminates
    | tail _ hs ih => exact ih.inv hs
  induction acc with
  | intro s _ ih =>
    rcases h.progress s hr with ⟨r, e⟩ | ⟨s', hs⟩
    · obtain ⟨p', f⟩ := s
      have e : p' = _ := e
      subst e
      exact ⟨r, f, .refl⟩
    · obtain ⟨r, f, h'⟩ := ih s' hs (.tail hr hs)
      exact ⟨r, f, .head hs h'⟩

/-- **C87, the limit.**  A call that allocates nothing and changes its vector, made twice at the same time on one vector,
races on some schedule. -/
theorem C87_same_vector (c : Call T) (rows Y : Nat) (y : Nat → T) (F : Mem T) (hc : c.Works rows)
    (hfoot : ∃ G, Foot G (c.prog Y)) (hchange : ∃ i, i < rows ∧ c.effect y i ≠ y i)
    (hd : Disj (arr Y 0 (Buf.full rows y)) F) (hf : FiniteMem F) :
    ∃ s, Reach (bothInto c Y, (arr Y 0 (Buf.full rows y)).union F) s ∧ Race s.1 := by
  obtain ⟨G, hG⟩ := hfoot
  obtain ⟨i, hi, hne⟩ := hchange
  have h := hc y Y F hd hf
  obtain ⟨r, f, hr⟩ := reach_end h .refl
  have := h.result r f hr
  subst this
  exact race_with_itself hG hr (fun e => hne (arr_inj e i hi))

/-- The program allocates and releases nothing. -/
def AllocatesNothing (p : Prog T) : Prop := Foot (fun _ => True) p

section
variable [Add T] [Mul T]

theorem Foot.anyCoo (v : Buf T) (ri ci : Buf Nat) (base nnz : Nat) (x : Buf T) (xo b yo : Nat) :
    AllocatesNothing (cooP v ri ci base nnz x xo b yo) :=
  Foot.seqFor (fun _ _ _ => Foot.read (fun _ _ => Foot.read (fun _ _ => Foot.read (fun _ _ =>
    (Foot.macc _ _ _ _ _).mono (fun _ _ => trivial)))))

/-- The kernels of all formats but CGBR (which has temporary vectors) qualify. -/
theorem C87_allocate_nothing [Zero T] (M : Nat) (x : Buf T) (Y : Nat) :
    (∀ A : Csr T, AllocatesNothing (A.spmvP x 0 Y 0)) ∧ (∀ A : Csr2 T, AllocatesNothing (A.spmvP x Y)) ∧
    (∀ A : Dense T, AllocatesNothing (A.spmvP M x 0 Y 0)) ∧ (∀ A : CrCsr T, AllocatesNothing (A.spmvP x Y)) ∧
    (∀ A : Cswr T, AllocatesNothing (A.spmvP M x Y)) ∧ (∀ A : Csbr T, AllocatesNothing (A.spmvP M x Y)) ∧
    (∀ A : Csbr2 T, AllocatesNothing (A.spmvP M x Y)) ∧ (∀ A : Csbr3 T, AllocatesNothing (A.spmvP M x Y)) := by
  refine ⟨fun A => ?_, fun A => ?_, fun A => ?_, fun A => ?_, fun A => ?_, fun A => ?_, fun A => ?_, fun A => ?_⟩
  · exact (Foot.csr _ _ _ _ _ _ _ _ _).mono (fun _ _ => trivial)
  · exact Foot.parFor (fun _ _ _ => Foot.read (fun _ _ => Foot.read (fun _ _ => Foot.true_acc _ _ _ _ _)))
  · exact Foot.parFor (fun _ _ _ => Foot.true_acc _ _ _ _ _)
  · exact Foot.parFor (fun _ _ _ => Foot.read (fun _ _ => Foot.read (fun _ _ => Foot.read (fun _ _ => Foot.true_acc _ _ _ _ _))))
  · exact Foot.parFor (fun _ _ _ => Foot.read (fun _ _ => Foot.read (fun _ _ => Foot.anyCoo _ _ _ _ _ _ _ _ _)))
  · exact Foot.parFor (fun _ _ _ => Foot.read (fun _ _ => Foot.read (fun _ _ => Foot.read (fun _ _ => Foot.seqFor (fun _ _ _ =>
      Foot.read (fun _ _ => Foot.read (fun _ _ => Foot.read (fun _ _ => (Foot.csr _ _ _ _ _ _ _ _ _).mono (fun _ _ => trivial)))))))))
  · exact Foot.parFor (fun _ _ _ => Foot.read (fun _ _ => Foot.read (fun _ _ => Foot.read (fun _ _ => Foot.read (fun _ _ =>
      Foot.seqFor (fun _ _ _ => Foot.read (fun _ _ => (Foot.csrSerial _ _ _ _ _ _ _ _ _).mono (fun _ _ => trivial))))))))
  · exact Foot.parFor (fun _ _ _ => Foot.read (fun _ _ => Foot.read (fun _ _ => Foot.seqFor (fun _ _ _ => Foot.read (fun _ _ =>
      Foot.read (fun _ _ => Foot.read (fun _ _ => Foot.anyCoo _ _ _ _ _ _ _ _ _)))))))

end

/-- For example: two multiplications at the same time by one CSR matrix into one vector they change. -/
theorem C87_csr_same_vector {ε : Type} [NZ ε T] [Add T] [Mul T] (M rows columns : Nat) (es : List ε)
    (hnnz : es.length < M) (hrows : rows + 1 < M) (hcols : columns < M) (hin : InRange (ents es) rows columns)
    (nx : Nat) (hnx : columns ≤ nx) (x y : Nat → T) (hchange : ∃ i, i < rows ∧ spmvExact (ents es) x y i ≠ y i) (Y : Nat) (F : Mem T)
    (hd : Disj (arr Y 0 (Buf.full rows y)) F) (hf : FiniteMem F) :
    ∃ A es', cooToCsr M es rows columns = .ok (A, es') ∧
      ∃ s, Reach (Prog.fork (A.spmvP (Buf.full nx x) 0 Y 0) (A.spmvP (Buf.full nx x) 0 Y 0) (fun _ => .ret 0),
        (arr Y 0 (Buf.full rows y)).union F) s ∧ Race s.1 := by
  have : Nonempty T := ⟨y 0⟩
  obtain ⟨A, es', h, -⟩ := C16_csr M rows columns es hnnz hrows hcols hin nx hnx x y
  refine ⟨A, es', h, C87_same_vector ⟨fun Y => A.spmvP (Buf.full nx x) 0 Y 0, spmvExact (ents es) x⟩ rows Y y F (fun y => ?_)
    ⟨_, (Foot.csr _ _ _ _ _ _ _ _ _).mono (G := fun _ => True) (fun _ _ => trivial)⟩ hchange hd hf⟩
  obtain ⟨A2, es2, h2, h3⟩ := C16_csr M rows columns es hnnz hrows hcols hin nx hnx x y
  rw [h] at h2
  cases h2
  exact h3

end Gsb
