import Verif.Model.BlockTest
import Verif.Props.Drivers
import Verif.Props.Coo
import Verif.Props.Other
import Verif.Proof.Result
/-
Property C75: the program src/test/block.cpp, which times the seven formats of a block on each of its files.
-/
namespace Gsb
variable {T τ : Type}

/-! ### Specification -/

/-- The name carries the labels block.cpp looks for: after the directories, if any, `size`, the digits of `size`, `ratio`,
a decimal fraction `ratio`, a dot and anything else without a slash. -/
def Labelled (name : String) (size : Nat) (ratio : Bytes) : Prop :=
  ∃ dir d a b rest, chars name = dir ++ (chars "size" ++ (d ++ (chars "ratio" ++ (ratio ++ (chars "." ++ rest))))) ∧
    (dir = [] ∨ ∃ p, dir = p ++ chars "/") ∧ (∀ c ∈ rest, c ≠ 47) ∧
    Unsigned d size ∧ size < 2 ^ 64 ∧ ratio = a ++ (chars "." ++ b) ∧ a ≠ [] ∧ Digits a ∧ Digits b

/-- The names of the seven formats, in the order of the head line. -/
def blockNames : List String := ["COO", "COO2", "COO_SI", "CSR", "CSR2", "CSR_SI", "DENSE"]

/-- One file and what it holds. -/
structure BlockInput (T : Type) where
  name : String
  size : Nat
  ratio : Bytes
  rows : Nat
  columns : Nat
  entries : List (Ent T)

/-- The last component of the name does not begin with `size`. -/
def Unlabelled (name : String) : Prop :=
  ∃ dir base, chars name = dir ++ base ∧ (dir = [] ∨ ∃ p, dir = p ++ chars "/") ∧ (∀ c ∈ base, c ≠ 47) ∧ ¬ chars "size" <+: base

/-- The file can be used and its numbers are `int`s. -/
structure BlockInput.Readable (cv : Codec T) (conv : Bytes → T) (files : String → Option Bytes) (i : BlockInput T) : Prop where
  holds : FileHolds cv conv files i.name i.rows i.columns i.entries
  inRange : InRange i.entries i.rows i.columns
  nnz : i.entries.length < 2 ^ 31
  rows : i.rows + 1 < 2 ^ 31
  columns : 0 < i.columns ∧ i.columns < 2 ^ 31

/-- The coordinates have 16 bits. -/
def BlockInput.Small (i : BlockInput T) : Prop := ∀ e ∈ i.entries, e.row < 2 ^ 16 ∧ e.col < 2 ^ 16

/-- Besides, the name carries the labels, and the matrix is small enough for 16-bit coordinates and for a dense array indexed
by `int`. -/
structure BlockInput.Ok (cv : Codec T) (conv : Bytes → T) (files : String → Option Bytes) (i : BlockInput T) : Prop
    extends i.Readable cv conv files where
  labels : Labelled i.name i.size i.ratio
  small : i.Small
  area : i.rows * i.columns < 2 ^ 31

/-- What is reported about file number `f`: its labels, the number of entries, and for each format the time of the loop
over the number of iterations; and `y` is what it was, random numbers. -/
def BlockInput.report (m : Machine T τ) (i : BlockInput T) (f : Nat) : BlockReport T τ :=
  ⟨i.size, i.ratio, i.entries.length, blockNames.map (fun s => (s, m.over (m.lap s f) m.iterations)), Buf.full i.rows (m.rnd i.name)⟩

/-! ### Proofs -/

theorem baseName_of (dir base : Bytes) (hd : dir = [] ∨ ∃ p, dir = p ++ [47]) (hb : ∀ c ∈ base, c ≠ 47) :
    baseName (dir ++ base) = base := by
  unfold baseName
  rw [List.reverse_append]
  have h1 : ∀ a ∈ base.reverse, (fun x => decide (x ≠ 47)) a = true := by intro a ha; simpa using hb a (List.mem_reverse.1 ha)
  rw [List.takeWhile_append_of_pos h1]
  rcases hd with rfl | ⟨p, rfl⟩
  · simp
  · simp

theorem stripText_append (lit s : Bytes) : stripText lit (lit ++ s) = some s := by
  unfold stripText
  rw [if_pos (by rw [List.isPrefixOf_iff_prefix]; exact List.prefix_append _ _)]
  simp

theorem split_digits {d rest : Bytes} (hd : Digits d) (hr : Stop isDigit rest) :
    (d ++ rest).takeWhile isDigit = d ∧ (d ++ rest).dropWhile isDigit = rest := by
  rw [List.takeWhile_append_of_pos hd, List.dropWhile_append_of_pos hd]
  cases rest with
  | nil => simp
  | cons b t => have := hr b rfl; simp [this]

theorem scanLg_ratio (a b rest : Bytes) (ha0 : a ≠ []) (ha : Digits a) (hb : Digits b) :
    scanLg id ((a ++ (46 :: b)) ++ (46 :: rest)) = .ok (.got (a ++ 46 :: b) (46 :: rest)) := by
  have hst : Stop isDigit (46 :: rest) := by intro c hc; cases hc; decide
  have hst' : Stop isDigit (46 :: (b ++ (46 :: rest))) := by intro c hc; cases hc; decide
  have hsplit := split_digits ha hst'
  have e0 : (a ++ (46 :: b)) ++ (46 :: rest) = a ++ (46 :: (b ++ (46 :: rest))) := by simp
  have hlen : (a ++ (46 :: (b ++ (46 :: rest)))).take ((a ++ (46 :: (b ++ (46 :: rest)))).length - (46 :: rest).length) = a ++ 46 :: b := by
    rw [← e0, List.take_left' (by simp; omega)]
  rw [e0]
  generalize hR : 46 :: (b ++ (46 :: rest)) = R at *
  obtain ⟨c, t, rfl⟩ := List.exists_cons_of_ne_nil ha0
  have hc := ha c (by simp)
  have hws : skipWs (c :: t ++ R) = c :: t ++ R := by
    unfold skipWs
    rw [List.cons_append, List.dropWhile_cons_of_neg]
    rw [digit_not_blank hc]; decide
  have hsg : scanSign (c :: (t ++ R)) = (false, c :: (t ++ R)) := by
    have := digit_not_sign hc
    simp only [Bool.or_eq_false_iff, beq_eq_false_iff_ne] at this
    simp [scanSign, this.1, this.2]
  have hun : unmodelledLg (c :: (t ++ R)) = false := by
    have h2 : ∀ z, (t ++ R).head? = some z → z ≠ 88 ∧ z ≠ 120 := by
      intro z hz
      cases t with
      | nil => rw [← hR] at hz; cases hz; decide
      | cons z' t =>
        simp only [List.cons_append, List.head?_cons, Option.some.injEq] at hz
        subst hz
        have := ha z' (by simp)
        constructor <;> (rintro rfl; revert this; decide)
    have h1 : c ≠ 73 ∧ c ≠ 105 ∧ c ≠ 78 ∧ c ≠ 110 := by
      refine ⟨?_, ?_, ?_, ?_⟩ <;> (rintro rfl; revert hc; decide)
    unfold unmodelledLg
    cases hh : (t ++ R).head? with
    | none => simp only [hh]; simp [h1]
    | some z => simp only [hh]; simp [h1, h2 z hh]
  unfold scanLg
  rw [hws, List.cons_append]
  simp only [hsg, hun]
  rw [List.cons_append] at hsplit
  rw [hsplit.1, hsplit.2, ← hR]
  simp only [Bool.false_eq_true, if_false, scanFrac, if_true, (split_digits hb hst).1, (split_digits hb hst).2]
  rw [if_neg (by simp)]
  rw [show scanExp (46 :: rest) = (some [], 46 :: rest) from by simp [scanExp]]
  simp only
  rw [← hR] at hlen
  rw [List.cons_append] at hlen
  rw [hlen]
  rfl

theorem scanLabel_ok {name : String} {size : Nat} {ratio : Bytes} (h : Labelled name size ratio) :
    scanLabel (baseName (chars name)) = .ok (some size, some ratio) := by
  obtain ⟨dir, d, a, b, rest, h1, h2, h3, h4, h5, rfl, h6, h7, h8⟩ := h
  have hdig : ∀ l : Bytes, Digits l → ∀ c ∈ l, c ≠ 47 := by
    intro l hl c hc
    have := hl c hc
    rintro rfl; revert this; decide
  rw [h1, baseName_of dir _ h2]
  · unfold scanLabel
    rw [stripText_append]
    simp only
    have := scanLu_numeral (a := []) (rest := chars "ratio" ++ ((a ++ (chars "." ++ b)) ++ (chars "." ++ rest))) blank_nil h4.numeral h5
      (by intro c hc; rw [show chars "ratio" = [114, 97, 116, 105, 111] from by decide] at hc; cases hc; decide)
    rw [List.nil_append] at this
    rw [this, ok_bind]
    simp only
    rw [stripText_append]
    simp only
    have e := scanLg_ratio a b rest h6 h7 h8
    rw [show chars "." = [46] from by decide]
    simp only [List.singleton_append] at e ⊢
    rw [e, ok_bind]
  · intro c hc
    simp only [List.mem_append] at hc
    rcases hc with hc | hc | hc | (hc | hc | hc) | hc | hc
    · revert c; decide
    · exact hdig d h4.2.1 c hc
    · revert c; decide
    · exact hdig a h7 c hc
    · revert c; decide
    · exact hdig b h8 c hc
    · revert c; decide
    · exact h3 c hc

theorem scanLabel_none {name : String} (h : Unlabelled name) : scanLabel (baseName (chars name)) = .ok (none, none) := by
  obtain ⟨dir, base, h1, h2, h3, h4⟩ := h
  rw [h1, baseName_of dir base h2 h3]
  unfold scanLabel stripText
  rw [if_neg (by rw [List.isPrefixOf_iff_prefix]; exact h4)]

section
variable [Add T] [Mul T] [Zero T]

theorem accumulate_zero (hz : ∀ a v : T, a + v * 0 = a) (acc : T) (l : List (Ent T)) : accumulate (fun _ => 0) acc l = acc := by
  unfold accumulate
  induction l generalizing acc with
  | nil => rfl
  | cons e l ih => rw [List.foldl_cons, hz, ih]

theorem denseAcc_zero (hz : ∀ a v : T, a + v * 0 = a) (f : Nat → T) (n : Nat) (acc : T) : denseAcc f (fun _ => 0) n acc = acc := by
  unfold denseAcc
  generalize List.range n = l
  induction l generalizing acc with
  | nil => rfl
  | cons e l ih => rw [List.foldl_cons, hz, ih]

theorem benchAvg_ok (m : Machine T τ) (method : String) (f : Nat) (spmv : Buf T → C (Buf T)) (y : Buf T) (h : spmv y = .ok y) :
    benchAvg m method f spmv y = .ok ((method, m.over (m.lap method f) m.iterations), y) := by
  unfold benchAvg
  rw [h, ok_bind, forLoop_closed' (fun _ => y) (Nat.zero_le _) rfl rfl (fun _ _ _ => h), ok_bind]

theorem blockFormats_ok (hz : ∀ a v : T, a + v * 0 = a) (m : Machine T τ) (f rows columns : Nat) (es : List (Ent T)) (y : Nat → T)
    (hin : InRange es rows columns) (hfit : ∀ e ∈ es, e.row < 2 ^ 16 ∧ e.col < 2 ^ 16) (hn : es.length < 2 ^ 31)
    (hr : rows + 1 < 2 ^ 31) (hc : 0 < columns ∧ columns < 2 ^ 31) :
    blockFormats m f (Buf.full columns (fun _ => 0)) (Buf.full rows y) es rows columns =
      if rows * columns < 2 ^ 31 then
        .ok (blockNames.map (fun s => (s, m.over (m.lap s f) m.iterations)), Buf.full rows y) else .error .ub := by
  have hacc : ∀ l : List (Ent T), spmvInOrder l (fun _ => 0) y = y := fun l => funext fun i => accumulate_zero hz _ _
  have hacc' : ∀ l : List (Ent T), spmvExact l (fun _ => 0) y = y := fun l => funext fun i => accumulate_zero hz _ _
  have hcoo : ∀ (S : Nat) (l : List (Ent T)), l.Perm es → 2 ^ 16 ≤ S → ∃ A : Coo T, cooFill S l = .ok A ∧
      A.spmv (Buf.full columns (fun _ => 0)) 0 (Buf.full rows y) 0 = .ok (Buf.full rows y) := by
    intro S l hl hS
    have hf' : ∀ e ∈ ents l, e.row < S ∧ e.col < S := by
      intro e he
      rw [ents_ent] at he
      have := hfit e (hl.mem_iff.1 he)
      omega
    refine ⟨_, cooFill_spec S l, ?_⟩
    have R := cooFill_rep (T := T) S l
    rw [truncBoth_eq hf', ents_ent] at R
    unfold Coo.spmv
    rw [spmvCoo_spec R rfl (fun _ => 0) y (fun e he => ?_) (fun e he => ?_), hacc]
    · have := (hin e (hl.mem_iff.1 he)).2; omega
    · have := (hin e (hl.mem_iff.1 he)).1; omega
  obtain ⟨A1, a1, a2⟩ := hcoo (2 ^ 32) es (List.Perm.refl _) (by norm_num)
  have b2 := C04_coo_array_spmv rows columns es (by rw [ents_ent]; exact hin) (fun _ => 0) y
  rw [hacc] at b2
  have hp1 : (pssSort ltMortonInt es).Perm es := List.mergeSort_perm _ _
  obtain ⟨A3, c1, c2⟩ := hcoo (2 ^ 16) _ hp1 (Nat.le_refl _)
  have c3 : cooToBlockCooInt es = .ok (A3, pssSort ltMortonInt es) := by
    unfold cooToBlockCooInt
    rw [checkLoop_ok (2 ^ 16) es (by rw [ents_ent]; exact hfit), ok_bind]
    simp only
    rw [c1, ok_bind]
  have hin1 : InRange (ents (pssSort ltMortonInt es)) rows columns := by rw [ents_ent]; exact fun e he => hin e (hp1.mem_iff.1 he)
  have hl1 := hp1.length_eq
  obtain ⟨A4, e4, d1, -, d2⟩ := C01_csr_spmv (2 ^ 32) rows columns (pssSort ltMortonInt es) (by omega) (by omega) (by omega) hin1 columns rows
    (Nat.le_refl _) (Nat.le_refl _) (fun _ => 0) y
  rw [hacc'] at d2
  have h4 : e4 = sortTriplets (pssSort ltMortonInt es) := by
    unfold cooToCsr at d1
    simp only [Bool.false_eq_true, if_false] at d1
    obtain ⟨x, -, hx⟩ := bind_ok_iff.1 d1
    cases hx; rfl
  subst h4
  have hp2 := (sortTriplets_perm (pssSort ltMortonInt es) true).trans hp1
  generalize sortTriplets (pssSort ltMortonInt es) = l2 at *
  have hin2 : InRange (ents l2) rows columns := by rw [ents_ent]; exact fun e he => hin e (hp2.mem_iff.1 he)
  have hl2 := hp2.length_eq
  obtain ⟨A5, e5, f1, -, f2⟩ := C02_csr2_spmv (2 ^ 32) rows columns l2 (by omega) (by omega) hin2 columns rows
    (Nat.le_refl _) (Nat.le_refl _) (fun _ => 0) y
  rw [hacc'] at f2
  have h5 : e5 = sortTriplets l2 := by
    rw [cooToCsr2_spec (2 ^ 32) l2 rows columns false (by omega) (by omega) (fun e he => (hin e (hp2.mem_iff.1 he)).1)] at f1
    cases f1; rfl
  subst h5
  have hp3 := (sortTriplets_perm l2 true).trans hp2
  have hs3 := sortTriplets_sorted l2
  generalize sortTriplets l2 = l3 at *
  have hin3 : InRange (ents l3) rows columns := by rw [ents_ent]; exact fun e he => hin e (hp3.mem_iff.1 he)
  have hl3 := hp3.length_eq
  obtain ⟨A6, e6, g1, g2⟩ := C03_blockcsr_spmv (2 ^ 32) (2 ^ 16) rows columns l3 (by omega) (by omega) hin3
    (by rw [ents_ent]; exact fun e he => (hfit e (hp3.mem_iff.1 he)).2) hs3 columns rows 0 0 (by omega) (by omega) (fun _ => 0) y
  obtain ⟨y6, g3, g4, -⟩ := g2 A6.spmvSerial (by simp)
  have h6 : e6 = l3 := by
    unfold cooToBlockCsr at g1
    simp only [if_true] at g1
    obtain ⟨x, -, hx⟩ := bind_ok_iff.1 g1
    cases hx; rfl
  subst h6
  have hy6 : y6 = y := by
    funext i
    have := g4 i
    rw [Nat.zero_add] at this
    rw [this]
    have e0 : (fun i => y (0 + i)) = y := by funext i; rw [Nat.zero_add]
    rw [e0]
    exact accumulate_zero hz _ _
  rw [hy6] at g3
  unfold blockFormats
  rw [a1, ok_bind, benchAvg_ok m "COO" f (fun y => A1.spmv (Buf.full columns (fun _ => 0)) 0 y 0) _ a2, ok_bind]
  simp only
  rw [benchAvg_ok m "COO2" f (fun y => spmvCooArray (Buf.ofList es) es.length (Buf.full columns (fun _ => 0)) 0 y 0) _ b2, ok_bind]
  simp only
  rw [c3, ok_bind]
  simp only
  rw [benchAvg_ok m "COO_SI" f (fun y => A3.spmv (Buf.full columns (fun _ => 0)) 0 y 0) _ c2, ok_bind, d1, ok_bind]
  simp only
  rw [benchAvg_ok m "CSR" f (fun y => A4.spmvSerial (Buf.full columns (fun _ => 0)) 0 y 0) _ d2, ok_bind, f1, ok_bind]
  simp only
  rw [benchAvg_ok m "CSR2" f (fun y => A5.spmvSerial (Buf.full columns (fun _ => 0)) y) _ f2, ok_bind, g1, ok_bind]
  simp only
  rw [benchAvg_ok m "CSR_SI" f (fun y => A6.spmvSerial (Buf.full columns (fun _ => 0)) 0 y 0) _ g3, ok_bind]
  split
  · rename_i ha
    have i2 : cooToDense (T := T) (2 ^ 32) e6 rows columns =
        .ok ⟨Buf.full (rows * columns) (fun p => lastAt (ents e6) (p / columns) (p % columns)), rows, columns⟩ := by
      unfold cooToDense
      simp only
      rw [cassert_ok (by rw [mulM_eq (by omega)]; simp; exact Nat.le_mul_of_pos_right rows hc.1), ok_bind,
        denseFill_spec (2 ^ 32) e6 rows columns (by omega) hin3, ok_bind]
    have i4 := dense_spmv_spec (T := T) (2 ^ 32) ⟨Buf.full (rows * columns) (fun p => lastAt (ents e6) (p / columns) (p % columns)), rows, columns⟩
      (lastAt (ents e6)) (nx := columns) (ny := rows) (xo := 0) (yo := 0) (by simp only; omega) rfl
      (fun i j hi hj => by
        simp only [Buf.full_dat]
        have h' := (pos_iff (r := i) (p := i * columns + j) hj).1 rfl
        rw [← h'.1, ← h'.2]) (by simp) (by simp) (fun _ => 0) y
    simp only [denseAcc_zero hz, ite_self] at i4
    generalize (⟨Buf.full (rows * columns) (fun p => lastAt (ents e6) (p / columns) (p % columns)), rows, columns⟩ : Dense T) = A7 at i2 i4
    rw [i2, ok_bind]
    simp only
    rw [benchAvg_ok m "DENSE" f (fun y => A7.spmv (2 ^ 32) (Buf.full columns (fun _ => 0)) 0 y 0) _ i4, ok_bind]
    rfl
  · rfl

theorem blockCooInt_rejects (es : List (Ent T)) (hbad : ∃ e ∈ es, ¬ (e.row < 2 ^ 16 ∧ e.col < 2 ^ 16)) :
    cooToBlockCooInt es = .error .assertion := by
  have h := (C04_blockcoo_rejects (T := T) (2 ^ 32) (2 ^ 16) (by norm_num) es (by rw [ents_ent]; exact hbad)).1
  unfold cooToBlockCoo at h
  rw [if_pos (by norm_num)] at h
  unfold cooToBlockCooInt
  generalize hL : (forLoop 0 es.length () fun i _ => do
      let e ← rd es i
      cassert (decide ((NZ.toEnt e).row < 2 ^ 16) && decide ((NZ.toEnt e).col < 2 ^ 16))) = L at h ⊢
  cases L with
  | error e => cases h; rfl
  | ok u =>
    exfalso
    rw [ok_bind] at h
    simp only [cooFill_spec, ok_bind] at h
    cases h

theorem blockFormats_rejects (hz : ∀ a v : T, a + v * 0 = a) (m : Machine T τ) (f rows columns : Nat) (es : List (Ent T)) (y : Nat → T)
    (hin : InRange es rows columns) (hr : rows + 1 < 2 ^ 31) (hc : 0 < columns ∧ columns < 2 ^ 31)
    (hbad : ∃ e ∈ es, ¬ (e.row < 2 ^ 16 ∧ e.col < 2 ^ 16)) :
    blockFormats m f (Buf.full columns (fun _ => 0)) (Buf.full rows y) es rows columns = .error .assertion := by
  have hacc : ∀ l : List (Ent T), spmvInOrder l (fun _ => 0) y = y := fun l => funext fun i => accumulate_zero hz _ _
  have R := cooFill_rep (T := T) (2 ^ 32) es
  rw [truncBoth_eq (by
    intro e he
    rw [ents_ent] at he
    have := hin e he
    omega), ents_ent] at R
  have a2 := spmvCoo_spec R (nx := columns) (ny := rows) (xo := 0) (yo := 0) (nnz := es.length) rfl (fun _ => 0) y
    (fun e he => by have := (hin e he).2; omega) (fun e he => by have := (hin e he).1; omega)
  rw [hacc] at a2
  have b2 := C04_coo_array_spmv rows columns es (by rw [ents_ent]; exact hin) (fun _ => 0) y
  rw [hacc] at b2
  unfold blockFormats
  rw [cooFill_spec, ok_bind]
  have e1 := benchAvg_ok m "COO" f (fun y => (⟨⟨es.length, fun k => (es[k]?).map (fun e => (NZ.toEnt e).row % 2 ^ 32)⟩,
      ⟨es.length, fun k => (es[k]?).map (fun e => (NZ.toEnt e).col % 2 ^ 32)⟩,
      ⟨es.length, fun k => (es[k]?).map (fun e => (NZ.toEnt e).val)⟩, es.length⟩ : Coo T).spmv (Buf.full columns (fun _ => 0)) 0 y 0) _ a2
  rw [e1, ok_bind]
  simp only
  rw [benchAvg_ok m "COO2" f (fun y => spmvCooArray (Buf.ofList es) es.length (Buf.full columns (fun _ => 0)) 0 y 0) _ b2, ok_bind,
    blockCooInt_rejects es hbad]
  rfl

variable (hz : ∀ a v : T, a + v * 0 = a) (m : Machine T τ) (cv : Codec T) (hv : cv.Exact (fun _ => True)) (conv : Bytes → T)
  (fuel : Nat) (hfuel : 0 < fuel) (fs : FS)
include hv hfuel

omit [Add T] [Mul T] [Zero T] in
theorem blockInput_read {i : BlockInput T} (h : i.Readable cv conv fs) :
    driverRead cv conv fuel fs i.name = .ok (some (i.rows, i.columns, i.entries)) := by
  have := h.nnz
  have := h.rows
  have := h.columns
  exact driverRead_ok cv hv conv fuel hfuel fs i.name i.rows i.columns i.entries (by omega) (by omega) (by omega) h.inRange h.holds

include hz

theorem blockLoop_step {i : BlockInput T} (h : i.Ok cv conv fs) (rest : List String) (f : Nat) (N : Option Nat) (q : Option Bytes)
    (coo : Bool) (out : List (BlockReport T τ)) :
    blockLoop m cv conv fuel fs (i.name :: rest) f N q coo out =
      blockLoop m cv conv fuel fs rest (f + 1) (some i.size) (some i.ratio) true (out ++ [i.report m f]) := by
  rw [blockLoop, blockInput_read cv hv conv fuel hfuel fs h.toReadable, ok_bind]
  simp only
  rw [scanLabel_ok h.labels, ok_bind]
  simp only [Option.isSome_some, if_true]
  rw [blockFormats_ok hz m f i.rows i.columns i.entries (m.rnd i.name) h.inRange h.small h.nnz h.rows h.columns, if_pos h.area, ok_bind]
  rfl

theorem blockLoop_all (is : List (BlockInput T)) (hne : is ≠ []) (h : ∀ i ∈ is, i.Ok cv conv fs) (rest : List String) (f : Nat)
    (N : Option Nat) (q : Option Bytes) (coo : Bool) (out : List (BlockReport T τ)) :
    blockLoop m cv conv fuel fs (is.map (·.name) ++ rest) f N q coo out =
      blockLoop m cv conv fuel fs rest (f + is.length) (some (is.getLast hne).size) (some (is.getLast hne).ratio) true
        (out ++ is.mapIdx (fun k i => i.report m (f + k))) := by
  induction is generalizing f N q coo out with
  | nil => exact absurd rfl hne
  | cons i is ih =>
    rw [List.map_cons, List.cons_append, blockLoop_step hz m cv hv conv fuel hfuel fs (h i (by simp))]
    cases is with
    | nil => simp
    | cons j is =>
      rw [ih (by simp) (fun a ha => h a (List.mem_cons_of_mem _ ha))]
      have e1 : (fun k (i : BlockInput T) => i.report m (f + (k + 1))) = fun k i => i.report m (f + 1 + k) := by
        funext k i; rw [show f + (k + 1) = f + 1 + k from by omega]
      have e2 : (i :: j :: is).mapIdx (fun k i => i.report m (f + k)) =
          i.report m f :: (j :: is).mapIdx (fun k i => i.report m (f + 1 + k)) := by rw [List.mapIdx_cons, e1]; rfl
      rw [e2, List.append_assoc, List.singleton_append, show f + 1 + (j :: is).length = f + (i :: j :: is).length from by simp; omega]
      rfl

/-! ### C75 -/

/-- **C75.** Every file usable, labelled and small: status 0, and one report per file, in the order of the arguments. -/
theorem C75_reports (is : List (BlockInput T)) (hne : is ≠ []) (h : ∀ i ∈ is, i.Ok cv conv fs) :
    blockMain m cv conv fuel fs (is.map (·.name)) = .ok (0, is.mapIdx (fun k i => i.report m (k + 1))) := by
  have := blockLoop_all hz m cv hv conv fuel hfuel fs is hne h [] 1 none none false []
  rw [List.append_nil, List.nil_append] at this
  unfold blockMain
  split
  · rename_i h0; exact absurd (List.map_eq_nil_iff.1 h0) hne
  · rw [this]
    unfold blockLoop
    simp only [if_true, Nat.add_comm 1]

/-- **C75.** A file that cannot be used, after others that could: status 1, and the reports about those. -/
theorem C75_later_unusable (is : List (BlockInput T)) (hne : is ≠ []) (h : ∀ i ∈ is, i.Ok cv conv fs) (name : String) (rest : List String)
    (hu : Unusable cv fs name) :
    blockMain m cv conv fuel fs (is.map (·.name) ++ name :: rest) = .ok (1, is.mapIdx (fun k i => i.report m (k + 1))) := by
  have := blockLoop_all hz m cv hv conv fuel hfuel fs is hne h (name :: rest) 1 none none false []
  unfold blockMain
  split
  · rename_i h0; simp at h0
  · rw [this]
    unfold blockLoop
    rw [driverRead_unusable cv conv fuel fs hv name hu, ok_bind]
    simp only [if_true, Nat.add_comm 1, List.nil_append]

/-- **C75**, finding: a file whose name does not begin with `size`, after one whose name does, is reported under the labels of that one. -/
theorem C75_stale_labels (is : List (BlockInput T)) (hne : is ≠ []) (h : ∀ i ∈ is, i.Ok cv conv fs) (i : BlockInput T)
    (hi : i.Readable cv conv fs) (hs : i.Small) (ha : i.rows * i.columns < 2 ^ 31) (hl : Unlabelled i.name) :
    blockMain m cv conv fuel fs (is.map (·.name) ++ [i.name]) = .ok (0, is.mapIdx (fun k i => i.report m (k + 1)) ++
      [({ i with size := (is.getLast hne).size, ratio := (is.getLast hne).ratio } : BlockInput T).report m (is.length + 1)]) := by
  have := blockLoop_all hz m cv hv conv fuel hfuel fs is hne h [i.name] 1 none none false []
  unfold blockMain
  split
  · rename_i h0; simp at h0
  · rw [this]
    rw [blockLoop, blockInput_read cv hv conv fuel hfuel fs hi, ok_bind]
    simp only
    rw [scanLabel_none hl, ok_bind]
    simp only [Option.isSome_none, Bool.false_eq_true, if_false]
    rw [blockFormats_ok hz m _ i.rows i.columns i.entries (m.rnd i.name) hi.inRange hs hi.nnz hi.rows hi.columns, if_pos ha, ok_bind]
    unfold blockLoop
    simp only [if_true, Nat.add_comm 1, List.nil_append]
    rfl

/-- **C75**, finding: an entry in row or column 2^16 or beyond — the program is ended by an assertion, whatever was reported before. -/
theorem C75_too_large (is : List (BlockInput T)) (h : ∀ i ∈ is, i.Ok cv conv fs) (i : BlockInput T) (hi : i.Readable cv conv fs)
    (hs : ¬ i.Small) (hl : Labelled i.name i.size i.ratio) (rest : List String) :
    blockMain m cv conv fuel fs (is.map (·.name) ++ i.name :: rest) = .error .assertion := by
  have hb : ∃ e ∈ i.entries, ¬ (e.row < 2 ^ 16 ∧ e.col < 2 ^ 16) := by
    unfold BlockInput.Small at hs
    push Not at hs
    obtain ⟨e, he, hh⟩ := hs
    exact ⟨e, he, fun h2 => absurd (hh h2.1) (by omega)⟩
  have key : ∀ f N q coo (out : List (BlockReport T τ)), blockLoop m cv conv fuel fs (i.name :: rest) f N q coo out = .error .assertion := by
    intro f N q coo out
    rw [blockLoop, blockInput_read cv hv conv fuel hfuel fs hi, ok_bind]
    simp only
    rw [scanLabel_ok hl, ok_bind]
    simp only [Option.isSome_some, if_true]
    rw [blockFormats_rejects hz m _ i.rows i.columns i.entries (m.rnd i.name) hi.inRange hi.rows hi.columns hb]
    rfl
  unfold blockMain
  split
  · rename_i h0; simp at h0
  · by_cases hne : is = []
    · subst hne; exact key _ _ _ _ _
    · rw [blockLoop_all hz m cv hv conv fuel hfuel fs is hne h (i.name :: rest)]
      exact key _ _ _ _ _

/-- **C75**, finding: a matrix whose `rows * columns` is not an `int` — the conversion to the dense format overflows, after the
six sparse formats have been timed. -/
theorem C75_area (is : List (BlockInput T)) (h : ∀ i ∈ is, i.Ok cv conv fs) (i : BlockInput T) (hi : i.Readable cv conv fs)
    (hs : i.Small) (hl : Labelled i.name i.size i.ratio) (ha : 2 ^ 31 ≤ i.rows * i.columns) (rest : List String) :
    blockMain m cv conv fuel fs (is.map (·.name) ++ i.name :: rest) = .error .ub := by
  have key : ∀ f N q coo (out : List (BlockReport T τ)), blockLoop m cv conv fuel fs (i.name :: rest) f N q coo out = .error .ub := by
    intro f N q coo out
    rw [blockLoop, blockInput_read cv hv conv fuel hfuel fs hi, ok_bind]
    simp only
    rw [scanLabel_ok hl, ok_bind]
    simp only [Option.isSome_some, if_true]
    rw [blockFormats_ok hz m _ i.rows i.columns i.entries (m.rnd i.name) hi.inRange hs hi.nnz hi.rows hi.columns, if_neg (by omega)]
    rfl
  unfold blockMain
  split
  · rename_i h0; simp at h0
  · by_cases hne : is = []
    · subst hne; exact key _ _ _ _ _
    · rw [blockLoop_all hz m cv hv conv fuel hfuel fs is hne h (i.name :: rest)]
      exact key _ _ _ _ _

omit hz hfuel in
/-- **C75**, finding: no argument, or a first file that cannot be used — the message is printed, but the return runs the destructor of
`coo`, which frees pointers that were never set. -/
theorem C75_first_unusable (name : String) (rest : List String) (hu : Unusable cv fs name) :
    blockMain m cv conv fuel fs [] = .error .ub ∧ blockMain m cv conv fuel fs (name :: rest) = .error .ub := by
  refine ⟨rfl, ?_⟩
  unfold blockMain blockLoop
  simp only
  rw [driverRead_unusable cv conv fuel fs hv name hu, ok_bind]
  rfl

omit hz in
/-- **C75**, finding: a first file whose name does not begin with `size` — `N` and `nnzratio` are printed without having been set. -/
theorem C75_unlabelled (i : BlockInput T) (hi : i.Readable cv conv fs) (hl : Unlabelled i.name) (rest : List String) :
    blockMain m cv conv fuel fs (i.name :: rest) = .error .uninit := by
  unfold blockMain blockLoop
  simp only
  rw [blockInput_read cv hv conv fuel hfuel fs hi, ok_bind]
  simp only
  rw [scanLabel_none hl, ok_bind]
  rfl

end

end Gsb
