import Verif.Props.Tools3
/-
C73: exit statuses of the tools, and the only files they touch — for every input, good or bad.
-/
namespace Gsb
variable {T : Type} {cv : Codec T}

/-- Only files with a name in `outs` differ. -/
def OnlyTouches (fs fs' : FS) (outs : String → Prop) : Prop := ∀ m, ¬ outs m → fs' m = fs m

theorem OnlyTouches.refl (fs : FS) (outs : String → Prop) : OnlyTouches fs fs outs := fun _ _ => rfl

theorem OnlyTouches.set {fs : FS} {outs : String → Prop} {n : String} (h : outs n) (b : Bytes) : OnlyTouches fs (fs.set n b) outs :=
  fun m hm => FS.set_other _ _ (fun e => hm (e ▸ h))

theorem OnlyTouches.trans {a b c : FS} {outs : String → Prop} (h1 : OnlyTouches a b outs) (h2 : OnlyTouches b c outs) :
    OnlyTouches a c outs := fun m hm => (h2 m hm).trans (h1 m hm)

theorem OnlyTouches.mono {a b : FS} {o1 o2 : String → Prop} (h : OnlyTouches a b o1) (hs : ∀ m, o1 m → o2 m) : OnlyTouches a b o2 :=
  fun m hm => h m (fun h1 => hm (hs m h1))

theorem outName_eq {cap limit : Nat} {name suffix out : String} (h : outName cap limit name suffix = .ok out) : out = name ++ suffix := by
  unfold outName at h
  split at h
  · exact (Except.ok.inj h).symm
  · cases h

/-! ### one2zero, double2float -/

theorem one2zeroFile_any (d : Disk) (fs fs' : FS) (name : String) (r : Option Nat) (h : one2zeroFile d fs name = .ok (r, fs')) :
    (r = none ∨ r = some 1) ∧ OnlyTouches fs fs' (· = name ++ ".zero") ∧
    (r = none → fs name ≠ none ∧ d.opens (name ++ ".zero") = true) ∧ (r = some 1 → fs' = fs) := by
  unfold one2zeroFile at h
  obtain ⟨out, ho, h⟩ := bind_ok h
  have ho := outName_eq ho
  split at h
  · cases h; exact ⟨.inr rfl, .refl _ _, by simp, fun _ => rfl⟩
  · rename_i data hf
    obtain ⟨x, -, h⟩ := bind_ok h
    obtain ⟨y, -, h⟩ := bind_ok h
    split at h
    · cases h; exact ⟨.inr rfl, .refl _ _, by simp, fun _ => rfl⟩
    · obtain ⟨l, -, h⟩ := bind_ok h
      split at h
      · rename_i hop
        cases h
        exact ⟨.inl rfl, .set (outs := (· = name ++ ".zero")) ho _, fun _ => ⟨by rw [hf]; simp, ho ▸ hop⟩, by simp⟩
      · cases h; exact ⟨.inr rfl, .refl _ _, by simp, fun _ => rfl⟩

/-- **C73**, one2zero: the status is 0 or 1 and only the `.zero` files are touched; 0 means that files were named, that each was
there (or was written by this run) and each output could be opened. -/
theorem C73_one2zero (d : Disk) (fs fs' : FS) (names : List String) (s : Nat) (h : one2zero d fs names = .ok (s, fs')) :
    (s = 0 ∨ s = 1) ∧ OnlyTouches fs fs' (fun m => ∃ n ∈ names, m = n ++ ".zero") ∧
    (s = 0 → names ≠ [] ∧ ∀ n ∈ names, (fs n ≠ none ∨ ∃ n' ∈ names, n = n' ++ ".zero") ∧ d.opens (n ++ ".zero") = true) ∧
    (names = [] → s = 1) := by
  have main : ∀ (l : List String) (fs : FS) (s : Nat) (fs' : FS), one2zeroLoop d l fs = .ok (s, fs') →
      (s = 0 ∨ s = 1) ∧ OnlyTouches fs fs' (fun m => ∃ n ∈ l, m = n ++ ".zero") ∧
      (s = 0 → ∀ n ∈ l, (fs n ≠ none ∨ ∃ n' ∈ l, n = n' ++ ".zero") ∧ d.opens (n ++ ".zero") = true) := by
    intro l
    induction l with
    | nil =>
      intro fs s fs' h
      rw [one2zeroLoop] at h
      cases h
      exact ⟨.inl rfl, .refl _ _, by simp⟩
    | cons a l ih =>
      intro fs s fs' h
      rw [one2zeroLoop] at h
      obtain ⟨⟨r, fs1⟩, h1, h⟩ := bind_ok h
      obtain ⟨a1, a2, a3, a4⟩ := one2zeroFile_any d fs fs1 a r h1
      have a2' : OnlyTouches fs fs1 (fun m => ∃ n ∈ a :: l, m = n ++ ".zero") := a2.mono (fun m hm => ⟨a, by simp, hm⟩)
      rcases a1 with rfl | rfl
      · obtain ⟨b1, b2, b3⟩ := ih _ _ _ h
        refine ⟨b1, a2'.trans (b2.mono (fun m ⟨n, hn, e⟩ => ⟨n, by simp [hn], e⟩)), fun hs n hn => ?_⟩
        rcases List.mem_cons.1 hn with rfl | hn
        · exact ⟨.inl (a3 rfl).1, (a3 rfl).2⟩
        · refine ⟨?_, (b3 hs n hn).2⟩
          rcases (b3 hs n hn).1 with b | ⟨n', hn', e⟩
          · by_cases hx : n = a ++ ".zero"
            · exact .inr ⟨a, by simp, hx⟩
            · exact .inl (by exact (a2 n hx) ▸ b)
          · exact .inr ⟨n', by simp [hn'], e⟩
      · cases h
        exact ⟨.inr rfl, a2', by simp⟩
  unfold one2zero at h
  split at h
  · cases h; exact ⟨.inr rfl, .refl _ _, by simp, fun _ => rfl⟩
  · rename_i hne
    obtain ⟨b1, b2, b3⟩ := main _ _ _ _ h
    exact ⟨b1, b2, fun hs => ⟨fun e => hne e, b3 hs⟩, fun e => absurd e hne⟩

theorem double2floatFile_any {D F : Type} (cd : Codec D) (cf : Codec F) (narrow : D → F) (d : Disk) (fs fs' : FS) (name : String)
    (r : Option Nat) (h : double2floatFile cd cf narrow d fs name = .ok (r, fs')) :
    (r = none ∨ r = some 1) ∧ OnlyTouches fs fs' (· = name ++ ".float") ∧
    (r = none → fs name ≠ none ∧ d.opens (name ++ ".float") = true) := by
  unfold double2floatFile at h
  obtain ⟨out, ho, h⟩ := bind_ok h
  have ho := outName_eq ho
  subst ho
  by_cases hopen : d.opens (name ++ ".float") = true
  · simp only [hopen, if_true] at h
    have hop : ∀ fs : FS, ∀ x, OnlyTouches fs (fs.set (name ++ ".float") x) (· = name ++ ".float") :=
      fun _ _ => .set (outs := (· = name ++ ".float")) rfl _
    cases hf : fs name with
    | none => rw [hf] at h; cases h; exact ⟨.inr rfl, hop _ _, by simp⟩
    | some data =>
      rw [hf] at h
      obtain ⟨o, -, h⟩ := bind_ok h
      cases h
      exact ⟨.inl rfl, (hop _ _).trans (hop _ _), fun _ => ⟨by simp, hopen⟩⟩
  · simp only [hopen] at h
    cases hf : fs name with
    | none => rw [hf] at h; cases h; exact ⟨.inr rfl, .refl _ _, by simp⟩
    | some data => rw [hf] at h; cases h; exact ⟨.inr rfl, .refl _ _, by simp⟩

/-- **C73**, double2float: likewise. -/
theorem C73_double2float {D F : Type} (cd : Codec D) (cf : Codec F) (narrow : D → F) (d : Disk) (fs fs' : FS) (names : List String)
    (s : Nat) (h : double2float cd cf narrow d fs names = .ok (s, fs')) :
    (s = 0 ∨ s = 1) ∧ OnlyTouches fs fs' (fun m => ∃ n ∈ names, m = n ++ ".float") ∧
    (s = 0 → names ≠ [] ∧ ∀ n ∈ names, (fs n ≠ none ∨ ∃ n' ∈ names, n = n' ++ ".float") ∧ d.opens (n ++ ".float") = true) ∧
    (names = [] → s = 1) := by
  have main : ∀ (l : List String) (fs : FS) (s : Nat) (fs' : FS), double2floatLoop cd cf narrow d l fs = .ok (s, fs') →
      (s = 0 ∨ s = 1) ∧ OnlyTouches fs fs' (fun m => ∃ n ∈ l, m = n ++ ".float") ∧
      (s = 0 → ∀ n ∈ l, (fs n ≠ none ∨ ∃ n' ∈ l, n = n' ++ ".float") ∧ d.opens (n ++ ".float") = true) := by
    intro l
    induction l with
    | nil =>
      intro fs s fs' h
      rw [double2floatLoop] at h
      cases h
      exact ⟨.inl rfl, .refl _ _, by simp⟩
    | cons a l ih =>
      intro fs s fs' h
      rw [double2floatLoop] at h
      obtain ⟨⟨r, fs1⟩, h1, h⟩ := bind_ok h
      obtain ⟨a1, a2, a3⟩ := double2floatFile_any cd cf narrow d fs fs1 a r h1
      have a2' : OnlyTouches fs fs1 (fun m => ∃ n ∈ a :: l, m = n ++ ".float") := a2.mono (fun m hm => ⟨a, by simp, hm⟩)
      rcases a1 with rfl | rfl
      · obtain ⟨b1, b2, b3⟩ := ih _ _ _ h
        refine ⟨b1, a2'.trans (b2.mono (fun m ⟨n, hn, e⟩ => ⟨n, by simp [hn], e⟩)), fun hs n hn => ?_⟩
        rcases List.mem_cons.1 hn with rfl | hn
        · exact ⟨.inl (a3 rfl).1, (a3 rfl).2⟩
        · refine ⟨?_, (b3 hs n hn).2⟩
          rcases (b3 hs n hn).1 with b | ⟨n', hn', e⟩
          · by_cases hx : n = a ++ ".float"
            · exact .inr ⟨a, by simp, hx⟩
            · exact .inl (by exact (a2 n hx) ▸ b)
          · exact .inr ⟨n', by simp [hn'], e⟩
      · cases h
        exact ⟨.inr rfl, a2', by simp⟩
  unfold double2float at h
  split at h
  · cases h; exact ⟨.inr rfl, .refl _ _, by simp, fun _ => rfl⟩
  · rename_i hne
    obtain ⟨b1, b2, b3⟩ := main _ _ _ _ h
    exact ⟨b1, b2, fun hs => ⟨fun e => hne e, b3 hs⟩, fun e => absurd e hne⟩

/-! ### permute -/

/-- An index file that `read_bin_array` accepts: there, and not empty unless `malloc(0)` gives a pointer. -/
def Readable (malloc0 : Bool) (fs : FS) (name : String) : Prop :=
  ∃ data, fs name = some data ∧ (malloc0 = true ∨ items (idx 4) data ≠ [])

theorem readable_of {malloc0 : Bool} {fs : FS} {name : String} {r : Int × Buf Nat × Nat}
    (h : readBinArray (idx 4) malloc0 fs name = .ok (some r)) (hr : ¬ r.1 < 0) : Readable malloc0 fs name := by
  unfold readBinArray getFileSize at h
  cases hf : fs name with
  | none => rw [hf] at h; cases h
  | some data =>
    rw [hf] at h
    simp only [Option.map_some] at h
    rw [cdiv_ok (by decide), ok_bind] at h
    split at h
    · cases h; exact absurd (show (-1 : Int) < 0 by decide) hr
    · rename_i hc
      refine ⟨data, hf, ?_⟩
      by_cases hm : malloc0 = true
      · exact .inl hm
      · refine .inr fun e => hc ⟨?_, by simpa using hm⟩
        have := congrArg List.length e
        rwa [items_length] at this

theorem writeBinArray_touches {α : Type} (c : Codec α) (d : Disk) (fs : FS) (name : String) (l : List α) :
    OnlyTouches fs (writeBinArray c d fs name l).2 (· = name) := by
  unfold writeBinArray
  split
  · exact .set (outs := (· = name)) rfl _
  · exact .refl _ _

theorem permuteFile_any (malloc0 : Bool) (d : Disk) (fs fs' : FS) (perm : Buf Nat) (name : String) (b : Bool)
    (h : permuteFile malloc0 d fs perm name = .ok (b, fs')) :
    OnlyTouches fs fs' (· = name ++ ".permuted") ∧ (b = true → Readable malloc0 fs name) ∧ (b = false → fs' = fs) := by
  unfold permuteFile at h
  obtain ⟨r, hr, h⟩ := bind_ok h
  split at h
  · cases h; exact ⟨.refl _ _, by simp, fun _ => rfl⟩
  · split at h
    · cases h; exact ⟨.refl _ _, by simp, fun _ => rfl⟩
    · rename_i hneg
      obtain ⟨l, -, h⟩ := bind_ok h
      obtain ⟨l', -, h⟩ := bind_ok h
      obtain ⟨out, ho, h⟩ := bind_ok h
      have ho := outName_eq ho
      subst ho
      cases h
      exact ⟨writeBinArray_touches _ _ _ _ _, fun _ => readable_of hr hneg, by simp⟩

/-- **C73**, permute: the status is 0 or 1 and only the two `.permuted` files are touched; 0 means three arguments and three files
that can be read (the row file perhaps the output of the same run); with another number of arguments it is 1. -/
theorem C73_permute (inv malloc0 : Bool) (d : Disk) (fs fs' : FS) (args : List String) (s : Nat)
    (h : permuteTool inv malloc0 d fs args = .ok (s, fs')) :
    (s = 0 ∨ s = 1) ∧ (args.length ≠ 3 → s = 1 ∧ fs' = fs) ∧
    ∀ frow fcol fperm, args = [frow, fcol, fperm] →
      OnlyTouches fs fs' (fun m => m = frow ++ ".permuted" ∨ m = fcol ++ ".permuted") ∧
      (s = 0 → Readable malloc0 fs fperm ∧ Readable malloc0 fs fcol ∧
        (Readable malloc0 fs frow ∨ frow = fcol ++ ".permuted")) ∧
      (¬ Readable malloc0 fs fperm ∨ ¬ Readable malloc0 fs fcol → fs' = fs) := by
  unfold permuteTool at h
  split at h
  · rename_i frow fcol fperm
    obtain ⟨p, hp, h⟩ := bind_ok h
    have out : ∀ {P : Prop}, ([frow, fcol, fperm] : List String).length ≠ 3 → P := fun h => absurd rfl h
    split at h
    · cases h
      refine ⟨.inr rfl, out, ?_⟩
      rintro _ _ _ e; cases e
      exact ⟨.refl _ _, by simp, fun _ => rfl⟩
    · split at h
      · cases h
        refine ⟨.inr rfl, out, ?_⟩
        rintro _ _ _ e; cases e
        exact ⟨.refl _ _, by simp, fun _ => rfl⟩
      · rename_i hneg
        have hperm := readable_of hp hneg
        obtain ⟨perm, h⟩ : ∃ perm, (permuteFile malloc0 d fs perm fcol >>= fun c => if c.1 = true then
            permuteFile malloc0 d c.2 perm frow >>= fun r => if r.1 = true then .ok (0, r.2) else .ok (1, r.2)
            else .ok (1, c.2)) = (.ok (s, fs') : C Exit) := by
          cases inv with
          | false => exact ⟨_, h⟩
          | true => obtain ⟨perm, -, h⟩ := bind_ok h; exact ⟨_, h⟩
        obtain ⟨⟨b, fs1⟩, h1, h⟩ := bind_ok h
        obtain ⟨a1, a2, a3⟩ := permuteFile_any _ _ _ _ _ _ _ h1
        have a1' : OnlyTouches fs fs1 (fun m => m = frow ++ ".permuted" ∨ m = fcol ++ ".permuted") := a1.mono (fun _ h => .inr h)
        cases b with
        | false =>
          simp only [Bool.false_eq_true, if_false] at h
          cases h
          refine ⟨.inr rfl, out, ?_⟩
          rintro _ _ _ e; cases e
          exact ⟨a1', by simp, fun _ => a3 rfl⟩
        | true =>
          simp only [if_true] at h
          obtain ⟨⟨b, fs2⟩, h2, h⟩ := bind_ok h
          obtain ⟨b1, b2, b3⟩ := permuteFile_any _ _ _ _ _ _ _ h2
          have b1' : OnlyTouches fs1 fs2 (fun m => m = frow ++ ".permuted" ∨ m = fcol ++ ".permuted") := b1.mono (fun _ h => .inl h)
          have hno : ¬ Readable malloc0 fs fperm ∨ ¬ Readable malloc0 fs fcol → fs2 = fs := by
            rintro (h | h)
            · exact absurd hperm h
            · exact absurd (a2 rfl) h
          cases b with
          | false =>
            simp only [Bool.false_eq_true, if_false] at h
            cases h
            refine ⟨.inr rfl, out, ?_⟩
            rintro _ _ _ e; cases e
            exact ⟨a1'.trans b1', by simp, hno⟩
          | true =>
            simp only [if_true] at h
            cases h
            refine ⟨.inl rfl, out, ?_⟩
            rintro _ _ _ e; cases e
            refine ⟨a1'.trans b1', fun _ => ⟨hperm, a2 rfl, ?_⟩, hno⟩
            by_cases hx : frow = fcol ++ ".permuted"
            · exact .inr hx
            · obtain ⟨data, hd, hm⟩ := b2 rfl
              exact .inl ⟨data, by rw [← a1 _ hx]; exact hd, hm⟩
  · rename_i hne
    cases h
    refine ⟨.inr rfl, fun _ => ⟨rfl, rfl⟩, fun a b c e => absurd e (hne a b c)⟩

/-! ### convert, convert_blocked -/

theorem exist_of {fs : FS} {frow fcol fval : String} {r : Read3 T}
    (h : readBinCoo3Gen 4 cv fs frow fcol fval = .ok (some r)) (hr : ¬ r.ret < 0) :
    fs frow ≠ none ∧ fs fcol ≠ none ∧ fs fval ≠ none := by
  unfold readBinCoo3Gen getFileSize at h
  cases hv : fs fval with
  | none => rw [hv] at h; cases h
  | some v =>
    rw [hv] at h
    obtain ⟨size, -, h⟩ := bind_ok h
    cases h1 : fs frow with
    | none => rw [h1] at h; cases h; exact absurd (show (-1 : Int) < 0 by decide) hr
    | some a =>
      rw [h1] at h
      obtain ⟨x, -, h⟩ := bind_ok h
      cases h2 : fs fcol with
      | none => rw [h2] at h; cases h; exact absurd (show (-1 : Int) < 0 by decide) hr
      | some b => simp

theorem writeMmCoo_touches {ε : Type} [NZ ε T] (fmt : T → Fixed6) (d : Disk) (fs : FS) (name : String) (rows columns : Nat) (es : List ε) :
    OnlyTouches fs (writeMmCoo fmt d fs name rows columns es).2 (· = name) := by
  unfold writeMmCoo
  split
  · exact .set (outs := (· = name)) rfl _
  · exact .refl _ _

theorem writeBinCoo_touches {ε : Type} [NZ ε T] (d : Disk) (fs : FS) (name : String) (rows columns : Nat) (es : List ε) :
    OnlyTouches fs (writeBinCoo 4 cv d fs name rows columns es).2 (· = name) := by
  unfold writeBinCoo
  split
  · exact .set (outs := (· = name)) rfl _
  · exact .refl _ _

theorem writeBinBlocked_touches (d : Disk) (fs : FS) (name : String) (rows columns br bc nb : Nat) (es : List (Element T)) :
    OnlyTouches fs (writeBinBlocked 4 cv d fs name rows columns br bc nb es).2 (· = name) := by
  unfold writeBinBlocked
  split
  · exact .set (outs := (· = name)) rfl _
  · exact .refl _ _

theorem writeBinCoo3_touches {ε : Type} [NZ ε T] (d : Disk) (fs : FS) (a b c : String) (es : List ε) :
    OnlyTouches fs (writeBinCoo3 4 cv d fs a b c es).2 (fun m => m = a ∨ m = b ∨ m = c) := by
  have h1 : ∀ (fs : FS) x, OnlyTouches fs (fs.set a x) (fun m => m = a ∨ m = b ∨ m = c) :=
    fun _ _ => .set (outs := (fun m => m = a ∨ m = b ∨ m = c)) (.inl rfl) _
  have h2 : ∀ (fs : FS) x, OnlyTouches fs (fs.set b x) (fun m => m = a ∨ m = b ∨ m = c) :=
    fun _ _ => .set (outs := (fun m => m = a ∨ m = b ∨ m = c)) (.inr (.inl rfl)) _
  have h3 : ∀ (fs : FS) x, OnlyTouches fs (fs.set c x) (fun m => m = a ∨ m = b ∨ m = c) :=
    fun _ _ => .set (outs := (fun m => m = a ∨ m = b ∨ m = c)) (.inr (.inr rfl)) _
  have o : ∀ (fs : FS) n, (n = a ∨ n = b ∨ n = c) → OnlyTouches fs (if d.opens n = true then fs.set n [] else fs)
      (fun m => m = a ∨ m = b ∨ m = c) := by
    intro fs n hn
    split
    · exact .set (outs := (fun m => m = a ∨ m = b ∨ m = c)) hn _
    · exact .refl _ _
  have hopen := ((o fs c (by simp)).trans (o _ a (by simp))).trans (o _ b (by simp))
  unfold writeBinCoo3
  simp only
  split
  · exact hopen.trans (((h1 _ _).trans (h2 _ _)).trans (h3 _ _))
  · exact hopen

theorem convertWrite_touches (fmt : T → Fixed6) (d : Disk) (fs fs' : FS) (gr gc : Nat) (out : String) (bin mtx : Bool)
    (es : List (Triplet T)) (h : convertWrite cv fmt d fs gr gc out bin mtx es = .ok fs') :
    OnlyTouches fs fs' (fun m => m = out ++ ".mtx" ∧ mtx = true ∨ m = out ++ ".bin" ∧ bin = true) := by
  unfold convertWrite at h
  have second : ∀ fs fs' : FS, (if bin = true then (outName 128 118 out ".bin" >>= fun name =>
      (.ok (writeBinCoo 4 cv d fs name gr gc es).2 : C FS)) else .ok fs) = .ok fs' →
      OnlyTouches fs fs' (fun m => m = out ++ ".mtx" ∧ mtx = true ∨ m = out ++ ".bin" ∧ bin = true) := by
    intro fs fs' h
    split at h
    · rename_i hb
      obtain ⟨name, hn, h⟩ := bind_ok h
      have hn := outName_eq hn
      subst hn
      cases h
      exact (writeBinCoo_touches d fs _ gr gc es).mono (fun m hm => .inr ⟨hm, hb⟩)
    · cases h; exact .refl _ _
  cases hm : mtx with
  | false => rw [hm] at h second; exact second _ _ h
  | true =>
    rw [hm] at h second
    simp only [if_true] at h
    obtain ⟨name, hn, h⟩ := bind_ok h
    have hn := outName_eq hn
    subst hn
    exact ((writeMmCoo_touches fmt d fs _ gr gc es).mono (fun m hm => .inl ⟨hm, rfl⟩)).trans (second _ _ h)

theorem convertMode_some {mode : String} {m : Bool × Bool} (h : convertMode mode = some m) :
    (m.1 = true → mode = "bin" ∨ mode = "all") ∧ (m.2 = true → mode = "mtx" ∨ mode = "all") := by
  unfold convertMode at h
  by_cases h1 : mode = "bin"
  · rw [if_pos h1] at h; cases h; exact ⟨fun _ => .inl h1, by simp⟩
  · rw [if_neg h1] at h
    by_cases h2 : mode = "mtx"
    · rw [if_pos h2] at h; cases h; exact ⟨by simp, fun _ => .inl h2⟩
    · rw [if_neg h2] at h
      by_cases h3 : mode = "all"
      · rw [if_pos h3] at h; cases h; exact ⟨fun _ => .inr h3, fun _ => .inr h3⟩
      · rw [if_neg h3] at h; cases h

/-- **C73**, convert: the status is 0 or 1; only `out.mtx` and `out.bin` are touched, and only the asked one; with status 1 nothing is;
0 means five arguments, a known word and three files that were there. -/
theorem C73_convert (fmt : T → Fixed6) (d : Disk) (fs fs' : FS) (gr gc : Nat) (args : List String) (s : Nat)
    (h : convertTool cv fmt d fs gr gc args = .ok (s, fs')) :
    (s = 0 ∨ s = 1) ∧ (s = 1 → fs' = fs) ∧ (s = 0 → ∃ frow fcol fval out mode, args = [frow, fcol, fval, out, mode] ∧
      fs frow ≠ none ∧ fs fcol ≠ none ∧ fs fval ≠ none ∧
      OnlyTouches fs fs' (fun m => m = out ++ ".mtx" ∧ (mode = "mtx" ∨ mode = "all") ∨ m = out ++ ".bin" ∧ (mode = "bin" ∨ mode = "all"))) := by
  unfold convertTool at h
  split at h
  · rename_i frow fcol fval out mode
    split at h
    · cases h; exact ⟨.inr rfl, fun _ => rfl, by simp⟩
    · rename_i m hm
      obtain ⟨r, hr, h⟩ := bind_ok h
      split at h
      · cases h; exact ⟨.inr rfl, fun _ => rfl, by simp⟩
      · split at h
        · cases h; exact ⟨.inr rfl, fun _ => rfl, by simp⟩
        · rename_i hneg
          obtain ⟨e1, e2, e3⟩ := exist_of hr hneg
          obtain ⟨es, -, h⟩ := bind_ok h
          obtain ⟨fs1, hw, h⟩ := bind_ok h
          cases h
          refine ⟨.inl rfl, by simp, fun _ => ⟨frow, fcol, fval, out, mode, rfl, e1, e2, e3, ?_⟩⟩
          refine (convertWrite_touches fmt d _ _ _ _ _ _ _ _ hw).mono ?_
          obtain ⟨m1, m2⟩ := convertMode_some hm
          rintro m (⟨e, h⟩ | ⟨e, h⟩)
          · exact .inl ⟨e, m2 h⟩
          · exact .inr ⟨e, m1 h⟩
  · cases h; exact ⟨.inr rfl, fun _ => rfl, by simp⟩

theorem readSizes_some {malloc0 : Bool} {fs : FS} {name : String} {l : List Nat} (h : readSizes malloc0 fs name = .ok (some l)) :
    Readable malloc0 fs name := by
  unfold readSizes at h
  obtain ⟨r, hr, h⟩ := bind_ok h
  split at h
  · cases h
  · split at h
    · cases h
    · rename_i hneg
      exact readable_of hr hneg

/-- **C73**, convert_blocked: the status is 0 or 1; only the output is touched, with status 1 nothing is; 0 means five arguments and
four files that can be read. -/
theorem C73_convert_blocked (malloc0 : Bool) (d : Disk) (fs fs' : FS) (gr gc : Nat) (args : List String) (s : Nat)
    (h : convertBlockedTool cv malloc0 d fs gr gc args = .ok (s, fs')) :
    (s = 0 ∨ s = 1) ∧ (s = 1 → fs' = fs) ∧ (s = 0 → ∃ frow fcol fval fsizes out, args = [frow, fcol, fval, fsizes, out] ∧
      fs frow ≠ none ∧ fs fcol ≠ none ∧ fs fval ≠ none ∧ Readable malloc0 fs fsizes ∧ OnlyTouches fs fs' (· = out)) := by
  unfold convertBlockedTool at h
  split at h
  · rename_i frow fcol fval fsizes out
    obtain ⟨r, hs, h⟩ := bind_ok h
    split at h
    · cases h; exact ⟨.inr rfl, fun _ => rfl, by simp⟩
    · have hs := readSizes_some hs
      obtain ⟨r, hr, h⟩ := bind_ok h
      split at h
      · cases h; exact ⟨.inr rfl, fun _ => rfl, by simp⟩
      · split at h
        · cases h; exact ⟨.inr rfl, fun _ => rfl, by simp⟩
        · rename_i hneg
          obtain ⟨e1, e2, e3⟩ := exist_of hr hneg
          obtain ⟨es, -, h⟩ := bind_ok h
          obtain ⟨es, -, h⟩ := bind_ok h
          obtain ⟨es, -, h⟩ := bind_ok h
          cases h
          exact ⟨.inl rfl, by simp, fun _ => ⟨frow, fcol, fval, fsizes, out, rfl, e1, e2, e3, hs, writeBinBlocked_touches _ _ _ _ _ _ _ _ _⟩⟩
  · cases h; exact ⟨.inr rfl, fun _ => rfl, by simp⟩

/-! ### expanded -/

/-- **C73**, expanded: the status is 0 or 1; only a file `out.exp` followed by a number is touched, with status 1 nothing is; 0 means five or
more arguments and four files that can be read.  If the sizes can be read and the values are there but the rows are missing the
program goes on with an unset number of entries. -/
theorem C73_expanded (decimal : Nat → String) (malloc0 : Bool) (d : Disk) (fs fs' : FS) (args : List String) (s : Nat)
    (h : expandedMain cv decimal malloc0 d fs args = .ok (s, fs')) :
    (s = 0 ∨ s = 1) ∧ (s = 1 → fs' = fs) ∧ (s = 0 → ∃ frow fcol fval fsizes out more, args = frow :: fcol :: fval :: fsizes :: out :: more ∧
      fs frow ≠ none ∧ fs fcol ≠ none ∧ fs fval ≠ none ∧ Readable malloc0 fs fsizes ∧
      OnlyTouches fs fs' (fun m => ∃ n, m = out ++ (".exp" ++ decimal n))) := by
  unfold expandedMain at h
  split at h
  · rename_i frow fcol fval fsizes out more
    obtain ⟨r, hs, h⟩ := bind_ok h
    split at h
    · cases h; exact ⟨.inr rfl, fun _ => rfl, by simp⟩
    · have hs := readSizes_some hs
      obtain ⟨r, hr, h⟩ := bind_ok h
      split at h
      · cases h; exact ⟨.inr rfl, fun _ => rfl, by simp⟩
      · split at h
        · cases h
        · rename_i hneg
          obtain ⟨e1, e2, e3⟩ := exist_of hr hneg
          obtain ⟨es, -, h⟩ := bind_ok h
          obtain ⟨es, -, h⟩ := bind_ok h
          obtain ⟨name, hn, h⟩ := bind_ok h
          cases h
          refine ⟨.inl rfl, by simp, fun _ => ⟨frow, fcol, fval, fsizes, out, more, rfl, e1, e2, e3, hs, ?_⟩⟩
          exact (writeBinCoo_touches _ _ _ _ _ _).mono (fun m hm => ⟨_, hm.trans (outName_eq hn)⟩)
  · cases h; exact ⟨.inr rfl, fun _ => rfl, by simp⟩

theorem C73_expanded_missing (decimal : Nat → String) (malloc0 : Bool) (d : Disk) (fs : FS) (frow fcol fval fsizes out : String)
    (more : List String) (hcv : 0 < cv.size) (sdata vdata : Bytes) (hs : fs fsizes = some sdata)
    (h0 : items (idx 4) sdata ≠ [] ∨ malloc0 = true) (hv : fs fval = some vdata) (hr : fs frow = none) :
    expandedMain cv decimal malloc0 d fs (frow :: fcol :: fval :: fsizes :: out :: more) = .error .uninit := by
  unfold expandedMain
  simp only
  obtain ⟨l, hl⟩ : ∃ l, readSizes malloc0 fs fsizes = .ok (some l) := by
    refine ⟨(items (idx 4) sdata).take ((items (idx 4) sdata).length % 2 ^ 32), ?_⟩
    unfold readSizes
    rw [readBinArray_items (by decide) malloc0 fs fsizes sdata hs h0, ok_bind]
    simp only
    rw [if_neg (by decide), toList_ofList _ _ rfl (fun _ => rfl), ok_bind]
  rw [hl, ok_bind]
  simp only
  have : ∃ A, readBinCoo3Gen 4 cv fs frow fcol fval = .ok (some ⟨-1, A, []⟩) := by
    unfold readBinCoo3Gen getFileSize
    rw [hv]
    simp only [Option.map_some]
    rw [cdiv_ok hcv, ok_bind, hr]
    exact ⟨_, rfl⟩
  obtain ⟨A, hA⟩ := this
  rw [hA, ok_bind]
  simp only
  rw [if_pos (by decide)]

/-! ### prepare -/

theorem prepareIndeces_any (malloc0 : Bool) (d : Disk) (fs fs' : FS) (perm : Buf Nat) (name out : String) (b : Bool)
    (h : prepareIndeces malloc0 d fs perm name out = .ok (b, fs')) :
    OnlyTouches fs fs' (· = out) ∧ (b = true → Readable malloc0 fs name) := by
  unfold prepareIndeces at h
  obtain ⟨r, hr, h⟩ := bind_ok h
  split at h
  · cases h; exact ⟨.refl _ _, by simp⟩
  · split at h
    · cases h; exact ⟨.refl _ _, by simp⟩
    · rename_i hneg
      obtain ⟨l, -, h⟩ := bind_ok h
      obtain ⟨l', -, h⟩ := bind_ok h
      simp only at h
      split at h
      · cases h; exact ⟨writeBinArray_touches _ _ _ _ _, by simp⟩
      · cases h; exact ⟨writeBinArray_touches _ _ _ _ _, fun _ => readable_of hr hneg⟩

theorem prepareOutputs_touches (decimal : Nat → String) (d : Disk) (fs fs' : FS) (gr gc : Nat) (out : String) (sizes : List Nat)
    (es : List (Element T)) (h : prepareOutputs cv decimal d fs gr gc out sizes es = .ok fs') :
    OnlyTouches fs fs' (fun m => m = out ++ ".row" ∨ m = out ++ ".block" ∨ m = out ++ ".col" ∨ ∃ n, m = out ++ (".col.exp" ++ decimal n)) := by
  unfold prepareOutputs at h
  obtain ⟨n1, h1, h⟩ := bind_ok h
  obtain ⟨nb, -, h⟩ := bind_ok h
  obtain ⟨n2, h2, h⟩ := bind_ok h
  obtain ⟨n3, h3, h⟩ := bind_ok h
  obtain ⟨t, -, h⟩ := bind_ok h
  obtain ⟨n4, h4, h⟩ := bind_ok h
  have h1 := outName_eq h1
  have h2 := outName_eq h2
  have h3 := outName_eq h3
  have h4 := outName_eq h4
  subst h1 h2 h3 h4
  cases h
  refine OnlyTouches.trans (OnlyTouches.trans (OnlyTouches.trans
    ((writeBinCoo_touches _ _ _ _ _ _).mono (fun m hm => .inl hm))
    ((writeBinBlocked_touches _ _ _ _ _ _ _ _ _).mono (fun m hm => .inr (.inl hm))))
    ((writeBinCoo_touches _ _ _ _ _ _).mono (fun m hm => .inr (.inr (.inl hm)))))
    ((writeBinCoo_touches _ _ _ _ _ _).mono (fun m hm => .inr (.inr (.inr ⟨_, hm⟩))))

theorem prepare_status (decimal : Nat → String) (malloc0 : Bool) (d : Disk) (fs fs' : FS) (gr gc : Nat) (args : List String) (s : Nat)
    (h : prepareTool cv decimal malloc0 d fs gr gc args = .ok (s, fs')) :
    (s = 0 ∨ s = 1) ∧ (args.length ≠ 6 → s = 1 ∧ fs' = fs) ∧
    (s = 1 → OnlyTouches fs fs' (fun m => m = tmpRows ∨ m = tmpCols)) ∧
    ∀ frow fcol fval fperm fsizes out, args = [frow, fcol, fval, fperm, fsizes, out] →
      (¬ Readable malloc0 fs fperm ∨ ¬ Readable malloc0 fs frow → s = 1) ∧
      (s = 0 → (∀ n ∈ [fcol, fsizes], n ≠ tmpRows → n ≠ tmpCols → Readable malloc0 fs n) ∧
        (fval ≠ tmpRows → fval ≠ tmpCols → fs fval ≠ none) ∧
        OnlyTouches fs fs' (fun m => m = out ++ ".row" ∨ m = out ++ ".block" ∨ m = out ++ ".col" ∨
          (∃ n, m = out ++ (".col.exp" ++ decimal n)) ∨ tmpDir.toList <+: m.toList)) := by
  unfold prepareTool at h
  split at h
  · rename_i frow fcol fval fperm fsizes out
    have hlen : ∀ {P : Prop}, ([frow, fcol, fval, fperm, fsizes, out] : List String).length ≠ 6 → P := fun h => absurd rfl h
    obtain ⟨p, hp, h⟩ := bind_ok h
    have one : ∀ fs1, OnlyTouches fs fs1 (fun m => m = tmpRows ∨ m = tmpCols) → (.ok (1, fs1) : C Exit) = .ok (s, fs') →
        (s = 0 ∨ s = 1) ∧ (([frow, fcol, fval, fperm, fsizes, out] : List String).length ≠ 6 → s = 1 ∧ fs' = fs) ∧
        (s = 1 → OnlyTouches fs fs' (fun m => m = tmpRows ∨ m = tmpCols)) ∧
        ∀ frow' fcol' fval' fperm' fsizes' out', [frow, fcol, fval, fperm, fsizes, out] = [frow', fcol', fval', fperm', fsizes', out'] →
          (¬ Readable malloc0 fs fperm' ∨ ¬ Readable malloc0 fs frow' → s = 1) ∧
          (s = 0 → (∀ n ∈ [fcol', fsizes'], n ≠ tmpRows → n ≠ tmpCols → Readable malloc0 fs n) ∧
            (fval' ≠ tmpRows → fval' ≠ tmpCols → fs fval' ≠ none) ∧
            OnlyTouches fs fs' (fun m => m = out' ++ ".row" ∨ m = out' ++ ".block" ∨ m = out' ++ ".col" ∨
              (∃ n, m = out' ++ (".col.exp" ++ decimal n)) ∨ tmpDir.toList <+: m.toList)) := by
      intro fs1 h1 h2
      cases h2
      exact ⟨.inr rfl, hlen, fun _ => h1, fun _ _ _ _ _ _ _ => ⟨fun _ => rfl, by simp⟩⟩
    split at h
    · exact one _ (.refl _ _) h
    · split at h
      · exact one _ (.refl _ _) h
      · rename_i hneg
        have rperm := readable_of hp hneg
        obtain ⟨⟨b, fs1⟩, h1, h⟩ := bind_ok h
        obtain ⟨a1, a2⟩ := prepareIndeces_any _ _ _ _ _ _ _ _ h1
        have a1' : OnlyTouches fs fs1 (fun m => m = tmpRows ∨ m = tmpCols) := a1.mono (fun _ h => .inl h)
        cases b with
        | false => exact one _ a1' h
        | true =>
          simp only [if_true] at h
          obtain ⟨⟨b, fs2⟩, h2, h⟩ := bind_ok h
          obtain ⟨b1, b2⟩ := prepareIndeces_any _ _ _ _ _ _ _ _ h2
          have b1' : OnlyTouches fs fs2 (fun m => m = tmpRows ∨ m = tmpCols) := a1'.trans (b1.mono (fun _ h => .inr h))
          cases b with
          | false => exact one _ b1' h
          | true =>
            simp only [if_true] at h
            obtain ⟨sz, hs, h⟩ := bind_ok h
            split at h
            · exact one _ b1' h
            · have hs := readSizes_some hs
              obtain ⟨r, hr, h⟩ := bind_ok h
              split at h
              · exact one _ b1' h
              · split at h
                · exact one _ b1' h
                · rename_i hneg
                  obtain ⟨-, -, e3⟩ := exist_of hr hneg
                  obtain ⟨es, -, h⟩ := bind_ok h
                  obtain ⟨es, -, h⟩ := bind_ok h
                  obtain ⟨fs3, hw, h⟩ := bind_ok h
                  have hw := prepareOutputs_touches _ _ _ _ _ _ _ _ _ hw
                  cases h
                  refine ⟨.inl rfl, hlen, by simp, ?_⟩
                  rintro _ _ _ _ _ _ e
                  cases e
                  refine ⟨?_, fun _ => ⟨?_, ?_, ?_⟩⟩
                  · rintro (h | h)
                    · exact absurd rperm h
                    · exact absurd (a2 rfl) h
                  · intro n hn t1 t2
                    simp only [List.mem_cons, List.not_mem_nil, or_false] at hn
                    rcases hn with rfl | rfl
                    · obtain ⟨x, hx, hm⟩ := b2 rfl
                      exact ⟨x, by rw [← a1 _ t1]; exact hx, hm⟩
                    · obtain ⟨x, hx, hm⟩ := hs
                      exact ⟨x, by rw [← b1' n (by simp [t1, t2])]; exact hx, hm⟩
                  · intro t1 t2
                    have := b1' fval (by simp [t1, t2])
                    rw [← this]; exact e3
                  · intro m hm
                    simp only [not_or] at hm
                    obtain ⟨m1, m2, m3, m4, m5⟩ := hm
                    have hpre : tmpDir.toList.isPrefixOf m.toList = false := by
                      rw [Bool.eq_false_iff]; intro h; exact m5 (List.isPrefixOf_iff_prefix.1 h)
                    show (if tmpDir.toList.isPrefixOf m.toList = true then none else fs3 m) = fs m
                    rw [hpre, if_neg (by decide), hw m (by simp only [not_or]; exact ⟨m1, m2, m3, m4⟩), b1' m ?_]
                    rintro (rfl | rfl)
                    · exact m5 (by decide)
                    · exact m5 (by decide)
  · rename_i hne
    cases h
    exact ⟨.inr rfl, fun _ => ⟨rfl, rfl⟩, fun _ => .refl _ _, fun a b c d e f h => absurd h (hne a b c d e f)⟩

/-! ### sort -/

/-- **C73**, prepare: the status is 0 or 1; with status 1 only the two temporary files are touched; 0 means six arguments and that the
permutation and the index files can be read (the column file perhaps a temporary file of this run), and besides the four outputs
and the files in the temporary directory nothing is touched. -/
theorem C73_prepare (decimal : Nat → String) (malloc0 : Bool) (d : Disk) (fs fs' : FS) (gr gc : Nat) (args : List String) (s : Nat)
    (h : prepareTool cv decimal malloc0 d fs gr gc args = .ok (s, fs')) :
    (s = 0 ∨ s = 1) ∧ (args.length ≠ 6 → s = 1 ∧ fs' = fs) ∧
    (s = 1 → OnlyTouches fs fs' (fun m => m = "/tmp/csbr_prepare/rows" ∨ m = "/tmp/csbr_prepare/cols")) ∧
    ∀ frow fcol fval fperm fsizes out, args = [frow, fcol, fval, fperm, fsizes, out] →
      (¬ Readable malloc0 fs fperm ∨ ¬ Readable malloc0 fs frow → s = 1) ∧
      (s = 0 → (∀ n ∈ [fcol, fsizes], n ≠ "/tmp/csbr_prepare/rows" → n ≠ "/tmp/csbr_prepare/cols" → Readable malloc0 fs n) ∧
        (fval ≠ "/tmp/csbr_prepare/rows" → fval ≠ "/tmp/csbr_prepare/cols" → fs fval ≠ none) ∧
        OnlyTouches fs fs' (fun m => m = out ++ ".row" ∨ m = out ++ ".block" ∨ m = out ++ ".col" ∨
          (∃ n, m = out ++ (".col.exp" ++ decimal n)) ∨ "/tmp/csbr_prepare/".toList <+: m.toList)) :=
  prepare_status decimal malloc0 d fs fs' gr gc args s h

/-- **C73**, sort: the status is 0 or 1; with status 1 nothing is touched; 0 means that there is one argument, a file that was there,
and only that name with `.sorted` is touched; or three or four, the matrix files were there and only their names with `.sorted` are
touched. -/
theorem C73_sort (conv : Bytes → T) (fmt : T → Fixed6) (stdSort : Nat → Nat → List (Triplet T) → C (List (Triplet T)))
    (fuel : Nat) (malloc0 : Bool) (d : Disk) (fs fs' : FS) (args : List String) (s : Nat)
    (h : sortTool cv conv fmt stdSort fuel malloc0 d fs args = .ok (s, fs')) :
    (s = 0 ∨ s = 1) ∧ (s = 1 → fs' = fs) ∧ (s = 0 →
      (∃ fmtx, args = [fmtx] ∧ fs fmtx ≠ none ∧ OnlyTouches fs fs' (· = fmtx ++ ".sorted")) ∨
      ∃ frow fcol fval more, args = frow :: fcol :: fval :: more ∧ (more = [] ∨ ∃ fsizes, more = [fsizes] ∧ Readable malloc0 fs fsizes) ∧
        fs frow ≠ none ∧ fs fcol ≠ none ∧ fs fval ≠ none ∧
        OnlyTouches fs fs' (fun m => m = frow ++ ".sorted" ∨ m = fcol ++ ".sorted" ∨ m = fval ++ ".sorted")) := by
  unfold sortTool at h
  split at h
  · rename_i fmtx
    obtain ⟨r, hr, h⟩ := bind_ok h
    split at h
    · cases h; exact ⟨.inr rfl, fun _ => rfl, by simp⟩
    · rename_i hneg
      split at h
      · obtain ⟨es, -, h⟩ := bind_ok h
        obtain ⟨out, ho, h⟩ := bind_ok h
        have ho := outName_eq ho
        subst ho
        cases h
        refine ⟨.inl rfl, by simp, fun _ => .inl ⟨fmtx, rfl, ?_, writeMmCoo_touches _ _ _ _ _ _ _⟩⟩
        intro hf
        rw [readMmCoo, hf] at hr
        cases hr
        exact hneg (show (-1 : Int) < 0 by decide)
      · cases h
  · cases h
  · rename_i frow fcol fval
    obtain ⟨r, hr, h⟩ := bind_ok h
    split at h
    · cases h; exact ⟨.inr rfl, fun _ => rfl, by simp⟩
    · split at h
      · cases h; exact ⟨.inr rfl, fun _ => rfl, by simp⟩
      · rename_i hneg
        obtain ⟨e1, e2, e3⟩ := exist_of hr hneg
        obtain ⟨es, -, h⟩ := bind_ok h
        obtain ⟨n1, h1, h⟩ := bind_ok h
        obtain ⟨n2, h2, h⟩ := bind_ok h
        obtain ⟨n3, h3, h⟩ := bind_ok h
        have h1 := outName_eq h1
        have h2 := outName_eq h2
        have h3 := outName_eq h3
        subst h1 h2 h3
        cases h
        exact ⟨.inl rfl, by simp, fun _ => .inr ⟨frow, fcol, fval, [], rfl, .inl rfl, e1, e2, e3, writeBinCoo3_touches _ _ _ _ _ _⟩⟩
  · rename_i frow fcol fval fsizes
    obtain ⟨b, hb, h⟩ := bind_ok h
    split at h
    · cases h; exact ⟨.inr rfl, fun _ => rfl, by simp⟩
    · obtain ⟨r, hr, h⟩ := bind_ok h
      split at h
      · cases h; exact ⟨.inr rfl, fun _ => rfl, by simp⟩
      · split at h
        · cases h; exact ⟨.inr rfl, fun _ => rfl, by simp⟩
        · rename_i hneg
          obtain ⟨e1, e2, e3⟩ := exist_of hr (fun h => hneg (.inl h))
          have hs := readable_of hb (fun h => hneg (.inr h))
          obtain ⟨es, -, h⟩ := bind_ok h
          obtain ⟨sz, -, h⟩ := bind_ok h
          obtain ⟨es, -, h⟩ := bind_ok h
          obtain ⟨n1, h1, h⟩ := bind_ok h
          obtain ⟨n2, h2, h⟩ := bind_ok h
          obtain ⟨n3, h3, h⟩ := bind_ok h
          have h1 := outName_eq h1
          have h2 := outName_eq h2
          have h3 := outName_eq h3
          subst h1 h2 h3
          cases h
          exact ⟨.inl rfl, by simp, fun _ => .inr ⟨frow, fcol, fval, [fsizes], rfl, .inr ⟨fsizes, rfl, hs⟩, e1, e2, e3,
            writeBinCoo3_touches _ _ _ _ _ _⟩⟩
  · cases h; exact ⟨.inr rfl, fun _ => rfl, by simp⟩

/-! ### Usage -/

/-- **C73**: with a wrong number of arguments every tool ends with status 1 and touches nothing; sort with two arguments reads beyond
the end of its argument vector. -/
theorem C73_usage {D F : Type} (cd : Codec D) (cf : Codec F) (narrow : D → F) (inv malloc0 : Bool) (decimal : Nat → String)
    (conv : Bytes → T) (fmt : T → Fixed6) (stdSort : Nat → Nat → List (Triplet T) → C (List (Triplet T))) (fuel : Nat) (d : Disk)
    (fs : FS) (gr gc : Nat) (args : List String) :
    one2zero d fs [] = .ok (1, fs) ∧ double2float cd cf narrow d fs [] = .ok (1, fs) ∧
    (args.length ≠ 3 → permuteTool inv malloc0 d fs args = .ok (1, fs)) ∧
    (args.length ≠ 5 → convertTool cv fmt d fs gr gc args = .ok (1, fs)) ∧
    (args.length ≠ 5 → convertBlockedTool cv malloc0 d fs gr gc args = .ok (1, fs)) ∧
    (args.length < 5 → expandedMain cv decimal malloc0 d fs args = .ok (1, fs)) ∧
    (args.length ≠ 6 → prepareTool cv decimal malloc0 d fs gr gc args = .ok (1, fs)) ∧
    (args.length = 0 ∨ 4 < args.length → sortTool cv conv fmt stdSort fuel malloc0 d fs args = .ok (1, fs)) ∧
    (args.length = 2 → sortTool cv conv fmt stdSort fuel malloc0 d fs args = .error .oob) := by
  refine ⟨rfl, rfl, fun h => ?_, fun h => ?_, fun h => ?_, fun h => ?_, fun h => ?_, fun h => ?_, fun h => ?_⟩
  · unfold permuteTool; split
    · simp at h
    · rfl
  · unfold convertTool; split
    · simp at h
    · rfl
  · unfold convertBlockedTool; split
    · simp at h
    · rfl
  · unfold expandedMain; split
    · simp at h; omega
    · rfl
  · unfold prepareTool; split
    · simp at h
    · rfl
  · unfold sortTool; split
    all_goals first | rfl | (simp at h)
  · match args, h with
    | [a, b], _ => rfl

/-- Hypotheses met, with both statuses: a file with indices 1 and 3; the same and then a missing one; an output that cannot be opened. -/
example : one2zero ⟨fun _ => true, 100, 100⟩ (FS.set (fun _ => none) "a" [1, 0, 0, 0, 3, 0, 0, 0]) ["a"] =
      .ok (0, (FS.set (fun _ => none) "a" [1, 0, 0, 0, 3, 0, 0, 0]).set ("a" ++ ".zero") [0, 0, 0, 0, 2, 0, 0, 0]) ∧
    one2zero ⟨fun _ => true, 100, 100⟩ (FS.set (fun _ => none) "a" [1, 0, 0, 0, 3, 0, 0, 0]) ["a", "b"] =
      .ok (1, (FS.set (fun _ => none) "a" [1, 0, 0, 0, 3, 0, 0, 0]).set ("a" ++ ".zero") [0, 0, 0, 0, 2, 0, 0, 0]) ∧
    one2zero ⟨fun _ => false, 100, 100⟩ (FS.set (fun _ => none) "a" [1, 0, 0, 0, 3, 0, 0, 0]) ["a"] =
      .ok (1, FS.set (fun _ => none) "a" [1, 0, 0, 0, 3, 0, 0, 0]) := by
  refine ⟨rfl, rfl, rfl⟩

/-- A permutation vector of one index, columns and no rows: status 1 after the columns have been written. -/
example : ∃ fs', permuteTool false true ⟨fun _ => true, 100, 100⟩
    ((FS.set (fun _ => none) "p" [0, 0, 0, 0]).set "c" [0, 0, 0, 0]) ["r", "c", "p"] = .ok (1, fs') ∧
    fs' "c.permuted" = some [0, 0, 0, 0] ∧
    ¬ Readable true ((FS.set (fun _ => none) "p" [0, 0, 0, 0]).set "c" [0, 0, 0, 0]) "r" := by
  refine ⟨_, rfl, rfl, ?_⟩
  rintro ⟨x, h, -⟩
  simp [FS.set] at h

section missing
variable {cv : Codec T}

theorem readBinCoo3Gen_missing (hv : 0 < cv.size) (fs : FS) (frow fcol fval : String)
    (h : fs frow = none ∨ fs fcol = none ∨ fs fval = none) :
    readBinCoo3Gen 4 cv fs frow fcol fval = .ok none ∨ ∃ r, readBinCoo3Gen 4 cv fs frow fcol fval = .ok (some r) ∧ r.ret < 0 := by
  unfold readBinCoo3Gen getFileSize
  cases h3 : fs fval with
  | none => exact .inl rfl
  | some dv =>
    right
    simp only [Option.map_some]
    rw [cdiv_ok hv, ok_bind]
    generalize dv.length % 256 ^ 4 / cv.size = n
    cases h1 : fs frow with
    | none => exact ⟨_, rfl, by simp⟩
    | some dr =>
      simp only
      obtain ⟨s1, e1, -⟩ := readLoop_count (M := 256 ^ 4) (c := idx 4) (n := n) (by decide)
        (0, none, ⟨dr, 0⟩, Buf.uninit n) (Nat.pow_pos (by decide)) (Nat.le_refl _)
      rw [e1, ok_bind]
      cases h2 : fs fcol with
      | none => exact ⟨_, rfl, by simp⟩
      | some dc => simp [h1, h2, h3] at h

theorem readSizes_any (malloc0 : Bool) (fs : FS) (name : String) : ∃ r, readSizes malloc0 fs name = .ok r ∧ (fs name = none → r = none) := by
  cases hf : fs name with
  | none =>
    refine ⟨none, ?_, fun _ => rfl⟩
    unfold readSizes
    rw [readBinArray_missing _ _ _ _ hf]
    rfl
  | some data =>
    by_cases h0 : items (idx 4) data ≠ [] ∨ malloc0 = true
    · unfold readSizes
      rw [readBinArray_items (by decide) malloc0 fs name data hf h0, ok_bind]
      simp only
      rw [if_neg (by decide), toList_ofList _ _ rfl (fun _ => rfl), ok_bind]
      exact ⟨_, rfl, by simp⟩
    · push Not at h0
      refine ⟨none, ?_, by simp⟩
      unfold readSizes readBinArray getFileSize
      rw [hf]
      simp only [Option.map_some]
      rw [cdiv_ok (by decide), ok_bind]
      have hl := items_length (idx 4) data
      rw [h0.1, List.length_nil] at hl
      rw [if_pos ⟨hl.symm, by simpa using h0.2⟩, ok_bind]
      rfl

/-- **C56**, missing inputs: whichever of the three files (for convert_blocked, of the four) is missing, and whatever the other
arguments are, the status is 1 and no file is touched; so it is with a wrong number of arguments. -/
theorem C56_missing_input (hv : 0 < cv.size) (fmt : T → Fixed6) (malloc0 : Bool) (d : Disk) (fs : FS) (gr gc : Nat)
    (frow fcol fval fsizes out mode : String) (args : List String) (hargs : args.length ≠ 5) :
    (fs frow = none ∨ fs fcol = none ∨ fs fval = none →
      convertTool cv fmt d fs gr gc [frow, fcol, fval, out, mode] = .ok (1, fs)) ∧
    (fs frow = none ∨ fs fcol = none ∨ fs fval = none ∨ fs fsizes = none →
      convertBlockedTool cv malloc0 d fs gr gc [frow, fcol, fval, fsizes, out] = .ok (1, fs)) ∧
    convertTool cv fmt d fs gr gc args = .ok (1, fs) ∧ convertBlockedTool cv malloc0 d fs gr gc args = .ok (1, fs) := by
  refine ⟨fun h => ?_, fun h => ?_, ?_, ?_⟩
  · unfold convertTool
    simp only
    cases convertMode mode with
    | none => rfl
    | some m =>
      simp only
      rcases readBinCoo3Gen_missing hv fs frow fcol fval h with h | ⟨r, h, hr⟩
      · rw [h]; rfl
      · rw [h, ok_bind]
        simp only
        rw [if_pos hr]
  · unfold convertBlockedTool
    simp only
    obtain ⟨r, hs, hn⟩ := readSizes_any malloc0 fs fsizes
    rw [hs, ok_bind]
    cases r with
    | none => rfl
    | some sizes =>
      simp only
      have h' : fs frow = none ∨ fs fcol = none ∨ fs fval = none := by
        rcases h with h | h | h | h
        · exact .inl h
        · exact .inr (.inl h)
        · exact .inr (.inr h)
        · exact absurd (hn h) (by simp)
      rcases readBinCoo3Gen_missing hv fs frow fcol fval h' with h | ⟨r, h, hr⟩
      · rw [h]; rfl
      · rw [h, ok_bind]
        simp only
        rw [if_pos hr]
  · unfold convertTool
    split
    · simp at hargs
    · rfl
  · unfold convertBlockedTool
    split
    · simp at hargs
    · rfl

end missing

end Gsb
