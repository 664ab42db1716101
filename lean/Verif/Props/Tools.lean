import Verif.Proof.Tools
import Verif.Props.Permute
/-
C52, C60, C61: the tools one2zero, double2float and permute.
-/
namespace Gsb
variable {T : Type}

theorem append_right_cancel' {a b s : String} (h : a ++ s = b ++ s) : a = b := by
  have := congrArg String.toList h
  simp only [String.toList_append] at this
  exact String.toList_inj.1 (List.append_cancel_right this)

/-! ### one2zero -/

/-- **C52.** If every file named holds indices that are all at least 1 (fewer than 2^32 of them), the
exit status is 0, for each file `f` the file `f.zero` holds the same indices minus one, in the same
order, and no other file is touched. -/
theorem C52_converts (d : Disk) (fs : FS) (names : List String) (hne : names ≠ []) (data : String → Bytes)
    (hshort : ∀ n ∈ names, n.utf8ByteSize < 121) (hout : ∀ n ∈ names, n ++ ".zero" ∉ names)
    (hfile : ∀ n ∈ names, fs n = some (data n)) (hlen : ∀ n ∈ names, (items (idx 4) (data n)).length < 2 ^ 32)
    (hpos : ∀ n ∈ names, ∀ v ∈ items (idx 4) (data n), 1 ≤ v)
    (hd : ∀ n ∈ names, d.Works (data n).length (n ++ ".zero")) :
    ∃ fs', one2zero d fs names = .ok (0, fs') ∧
      (∀ n ∈ names, fs' (n ++ ".zero") = some (packed (idx 4) ((items (idx 4) (data n)).map (· - 1)))) ∧
      ∀ m, (∀ n ∈ names, m ≠ n ++ ".zero") → fs' m = fs m := by
  have main : ∀ (l : List String) (fs : FS), (∀ n ∈ l, n ∈ names) → (∀ n ∈ names, fs n = some (data n)) →
      ∃ fs', one2zeroLoop d l fs = .ok (0, fs') ∧
      (∀ n ∈ l, fs' (n ++ ".zero") = some (packed (idx 4) ((items (idx 4) (data n)).map (· - 1)))) ∧
      (∀ m, (∀ n ∈ l, m ≠ n ++ ".zero") → fs' m = fs m) := by
    intro l
    induction l with
    | nil => exact fun fs _ _ => ⟨fs, rfl, by simp, fun m _ => rfl⟩
    | cons a l ih =>
      intro fs hl hfs
      have ha := hl a (by simp)
      have hw := hd a ha
      have hspec := one2zeroFile_spec d fs a (hshort a ha) (data a) (hfs a ha)
      rw [Nat.mod_eq_of_lt (hlen a ha)] at hspec
      simp only [List.take_length] at hspec
      have hlen2 : (packed (idx 4) ((items (idx 4) (data a)).map (· - 1))).length ≤ (data a).length := by
        rw [packed_length idx4_exact, List.length_map, items_length]
        exact Nat.div_mul_le_self _ _
      have hroom := hw.room
      have hkept := hw.kept
      rw [if_neg (fun h => by have := hpos a ha 0 h; omega), if_pos hw.opens, List.take_of_length_le (by omega)] at hspec
      obtain ⟨fs', h1, h2, h3⟩ := ih (fs.set (a ++ ".zero") (packed (idx 4) ((items (idx 4) (data a)).map (· - 1))))
        (fun n hn => hl n (by simp [hn]))
        (fun n hn => by 
          have hx : n ≠ a ++ ".zero" := by rintro rfl; exact hout a ha hn
          rw [FS.set_other _ _ hx]; exact hfs n hn)
      refine ⟨fs', ?_, ?_, ?_⟩
      · rw [one2zeroLoop, hspec, ok_bind]
        exact h1
      · intro n hn
        by_cases hnl : n ∈ l
        · exact h2 n hnl
        · have : n = a := by rcases List.mem_cons.1 hn with h | h; exact h; exact absurd h hnl
          subst this
          rw [h3 _ (fun m hm e => hnl (by rw [append_right_cancel' e]; exact hm)), FS.set_same]
      · intro m hm
        rw [h3 m (fun n hn => hm n (by simp [hn])), FS.set_other _ _ (hm a (by simp))]
  obtain ⟨fs', h1, h2, h3⟩ := main names fs (fun _ h => h) hfile
  refine ⟨fs', ?_, h2, h3⟩
  unfold one2zero
  split
  · exact absurd rfl hne
  · exact h1

/-- **C52.** If some file named holds a zero (or cannot be opened), the exit status is 1 and its
`.zero` file is not written. -/
theorem C52_rejects (d : Disk) (fs : FS) (names : List String) (bad : String) (hbad : bad ∈ names)
    (hshort : ∀ n ∈ names, n.utf8ByteSize < 121) (hout : ∀ n ∈ names, n ++ ".zero" ∉ names)
    (hwhy : fs bad = none ∨ ∃ data, fs bad = some data ∧ (items (idx 4) data).length < 2 ^ 32 ∧ 0 ∈ items (idx 4) data) :
    ∃ fs', one2zero d fs names = .ok (1, fs') ∧ fs' (bad ++ ".zero") = fs (bad ++ ".zero") := by
  have main : ∀ (l : List String) (fs : FS), (∀ n ∈ l, n ∈ names) → bad ∈ l →
      (fs bad = none ∨ ∃ data, fs bad = some data ∧ (items (idx 4) data).length < 2 ^ 32 ∧ 0 ∈ items (idx 4) data) →
      ∃ fs', one2zeroLoop d l fs = .ok (1, fs') ∧ fs' (bad ++ ".zero") = fs (bad ++ ".zero") := by
    intro l
    induction l with
    | nil => exact fun fs _ h => absurd h (by simp)
    | cons a l ih =>
      intro fs hl hb hw
      have ha := hl a (by simp)
      rw [one2zeroLoop]
      by_cases hab : a = bad
      · subst hab
        refine ⟨fs, ?_, rfl⟩
        rcases hw with hw | ⟨data, hw1, hw2, hw3⟩
        · rw [one2zeroFile_missing d fs a (hshort a ha) hw, ok_bind]
        · have hspec := one2zeroFile_spec d fs a (hshort a ha) data hw1
          rw [Nat.mod_eq_of_lt hw2] at hspec
          simp only [List.take_length] at hspec
          rw [hspec, if_pos hw3, ok_bind]
      · have hbl : bad ∈ l := by rcases List.mem_cons.1 hb with h | h; exact absurd h.symm hab; exact h
        cases hfa : fs a with
        | none => exact ⟨fs, by rw [one2zeroFile_missing d fs a (hshort a ha) hfa, ok_bind], rfl⟩
        | some data =>
          rw [one2zeroFile_spec d fs a (hshort a ha) data hfa]
          simp only
          split
          · exact ⟨fs, by rw [ok_bind], rfl⟩
          · split
            · rw [ok_bind]
              generalize (packed (idx 4) _).take _ = bytes
              obtain ⟨fs', h1, h2⟩ := ih (fs.set (a ++ ".zero") bytes) (fun n hn => hl n (by simp [hn])) hbl (by
                have hx : bad ≠ a ++ ".zero" := by rintro rfl; exact hout a ha hbad
                rw [FS.set_other _ _ hx]; exact hw)
              exact ⟨fs', h1, by rw [h2, FS.set_other _ _ (fun h => hab (append_right_cancel' h).symm)]⟩
            · exact ⟨fs, by rw [ok_bind], rfl⟩
  obtain ⟨fs', h1, h2⟩ := main names fs (fun _ h => h) hbad hwhy
  refine ⟨fs', ?_, h2⟩
  unfold one2zero
  split
  · simp at hbad
  · exact h1

/-- C52, the limit: of a file of 2^32 indices or more, only the remainder modulo 2^32 is
looked at and written — a file of exactly 2^32 indices becomes an empty one — and the status is 0. -/
theorem C52_large (d : Disk) (fs : FS) (name : String) (data : Bytes) (hname : name.utf8ByteSize < 121)
    (hf : fs name = some data)
    (hpos : ∀ v ∈ (items (idx 4) data).take ((items (idx 4) data).length % 2 ^ 32), 1 ≤ v)
    (hd : d.Works data.length (name ++ ".zero")) :
    ∃ fs', one2zero d fs [name] = .ok (0, fs') ∧ fs' (name ++ ".zero") =
      some (packed (idx 4) (((items (idx 4) data).take ((items (idx 4) data).length % 2 ^ 32)).map (· - 1))) := by
  refine ⟨_, ?_, FS.set_same fs _ _⟩
  show one2zeroLoop d [name] fs = _
  rw [one2zeroLoop, one2zeroFile_spec d fs name hname data hf]
  simp only
  have hlen2 : (packed (idx 4) (((items (idx 4) data).take ((items (idx 4) data).length % 2 ^ 32)).map (· - 1))).length ≤ data.length := by
    rw [packed_length idx4_exact, List.length_map, List.length_take, items_length]
    exact Nat.le_trans (Nat.mul_le_mul_right _ (Nat.min_le_right _ _)) (Nat.div_mul_le_self _ _)
  have hroom := hd.room
  have hkept := hd.kept
  rw [if_neg (fun h => by have := hpos 0 h; omega), if_pos hd.opens, ok_bind, List.take_of_length_le (by omega)]
  rfl

/-- Hypotheses met: a file of two indices and three stray bytes. -/
example : items (idx 4) ([1, 0, 0, 0, 0, 1, 0, 0, 9, 9, 9] : Bytes) = [1, 256] ∧
    ("rows.bin" ++ ".zero") ∉ ["rows.bin", "cols.bin"] ∧ "rows.bin".utf8ByteSize < 121 := by decide

/-! ### double2float -/

theorem narrowLoop_spec {D F : Type} {cd : Codec D} {cf : Codec F} {okF : F → Prop} (hcd : 0 < cd.size) (hcf : cf.Exact okF)
    (narrow : D → F) (d : Disk) (data : Bytes) (k n p : Nat) (l : List F) (hp : p = n * cd.size)
    (hn : n ≤ data.length / cd.size) (hk : data.length / cd.size - n < k) :
    narrowLoop cd cf narrow d k ⟨data, p⟩ ((packed cf l).take d.room) =
      .ok ((packed cf (l ++ ((items cd data).drop n).map narrow)).take d.room) := by
  induction k generalizing n p l with
  | zero => omega
  | succ k ih =>
    rw [narrowLoop]
    by_cases h : n = data.length / cd.size
    · have hshort : (⟨data, p⟩ : In).rest.length < cd.size := by
        show (data.drop p).length < _
        rw [List.length_drop, hp, h]
        have := Nat.div_add_mod' data.length cd.size
        have := Nat.mod_lt data.length hcd
        omega
      rw [fread1_short hshort]
      simp only [gt_iff_lt, Nat.lt_irrefl, if_false]
      rw [List.drop_of_length_le (by rw [items_length]; omega), List.map_nil, List.append_nil]
    · have hlt : n < data.length / cd.size := by omega
      have hle : (n + 1) * cd.size ≤ data.length :=
        Nat.le_trans (Nat.mul_le_mul_right _ hlt) (Nat.div_mul_le_self _ _)
      rw [Nat.succ_mul] at hle
      have hr : (⟨data, p⟩ : In).rest = data.drop (n * cd.size) := by rw [hp]; rfl
      have hread : fread1 cd ⟨data, p⟩ none = (1, some (cd.dec ((data.drop (n * cd.size)).take cd.size)), ⟨data, p + cd.size⟩) := by
        unfold fread1
        rw [hr, if_pos (by rw [List.length_drop]; omega)]
      rw [hread]
      simp only [gt_iff_lt, Nat.lt_one_iff, Nat.zero_lt_one, if_true]
      rw [fwrite1_take hcf]
      have hsnoc : packed cf l ++ cf.enc (narrow (cd.dec ((data.drop (n * cd.size)).take cd.size))) =
          packed cf (l ++ [narrow (cd.dec ((data.drop (n * cd.size)).take cd.size))]) := by
        rw [packed_append]; simp
      rw [hsnoc, ih (n + 1) (p + cd.size) _ (by rw [hp, Nat.succ_mul]) (by omega) (by omega)]
      have hi : n < (items cd data).length := by rw [items_length]; exact hlt
      rw [List.drop_eq_getElem_cons hi, List.map_cons, List.append_assoc]
      simp [items]

/-- One file, whatever it holds. -/
theorem double2floatFile_spec {D F : Type} {cd : Codec D} {cf : Codec F} {okF : F → Prop} (hcd : 0 < cd.size) (hcf : cf.Exact okF)
    (narrow : D → F) (d : Disk) (fs : FS) (name : String) (hname : name.utf8ByteSize < 121) (data : Bytes)
    (hf : fs name = some data) (ho : d.opens (name ++ ".float") = true) :
    double2floatFile cd cf narrow d fs name = .ok (none, (fs.set (name ++ ".float") []).set (name ++ ".float")
      ((packed cf ((items cd data).map narrow)).take (min d.kept d.room))) := by
  unfold double2floatFile
  rw [outName_ok hname (by decide), ok_bind, hf]
  simp only
  rw [if_pos ho, if_pos ho]
  have h := narrowLoop_spec hcd hcf narrow d data (data.length + 1) 0 0 [] (by simp) (Nat.zero_le _)
    (by have := Nat.div_le_self data.length cd.size; omega)
  simp only [packed_nil, List.take_nil, List.drop_zero, List.nil_append] at h
  rw [h, ok_bind, Disk.close, List.take_take]

/-- **C60.** For every file `f` named, `f.float` holds the values of `f` converted one by one, in order
(bytes after the last complete value are dropped); the exit status is 0 and no other file is touched. -/
theorem C60_converts {D F : Type} {cd : Codec D} {cf : Codec F} {okF : F → Prop} (hcd : 0 < cd.size) (hcf : cf.Exact okF)
    (narrow : D → F) (d : Disk) (fs : FS) (names : List String) (hne : names ≠ []) (data : String → Bytes)
    (hshort : ∀ n ∈ names, n.utf8ByteSize < 121) (hout : ∀ n ∈ names, n ++ ".float" ∉ names)
    (hfile : ∀ n ∈ names, fs n = some (data n))
    (hd : ∀ n ∈ names, d.Works ((items cd (data n)).length * cf.size) (n ++ ".float")) :
    ∃ fs', double2float cd cf narrow d fs names = .ok (0, fs') ∧
      (∀ n ∈ names, fs' (n ++ ".float") = some (packed cf ((items cd (data n)).map narrow))) ∧
      ∀ m, (∀ n ∈ names, m ≠ n ++ ".float") → fs' m = fs m := by
  have main : ∀ (l : List String) (fs : FS), (∀ n ∈ l, n ∈ names) → (∀ n ∈ names, fs n = some (data n)) →
      ∃ fs', double2floatLoop cd cf narrow d l fs = .ok (0, fs') ∧
      (∀ n ∈ l, fs' (n ++ ".float") = some (packed cf ((items cd (data n)).map narrow))) ∧
      (∀ m, (∀ n ∈ l, m ≠ n ++ ".float") → fs' m = fs m) := by
    intro l
    induction l with
    | nil => exact fun fs _ _ => ⟨fs, rfl, by simp, fun m _ => rfl⟩
    | cons a l ih =>
      intro fs hl hfs
      have ha := hl a (by simp)
      have hw := hd a ha
      have hspec := double2floatFile_spec hcd hcf narrow d fs a (hshort a ha) (data a) (hfs a ha) hw.opens
      have hroom := hw.room
      have hkept := hw.kept
      rw [List.take_of_length_le (by rw [packed_length hcf, List.length_map]; omega)] at hspec
      obtain ⟨fs', h1, h2, h3⟩ := ih ((fs.set (a ++ ".float") []).set (a ++ ".float") (packed cf ((items cd (data a)).map narrow)))
        (fun n hn => hl n (by simp [hn]))
        (fun n hn => by
          have hx : n ≠ a ++ ".float" := by rintro rfl; exact hout a ha hn
          rw [FS.set_other _ _ hx, FS.set_other _ _ hx]; exact hfs n hn)
      refine ⟨fs', ?_, ?_, ?_⟩
      · rw [double2floatLoop, hspec, ok_bind]
        exact h1
      · intro n hn
        by_cases hnl : n ∈ l
        · exact h2 n hnl
        · have : n = a := by rcases List.mem_cons.1 hn with h | h; exact h; exact absurd h hnl
          subst this
          rw [h3 _ (fun m hm e => hnl (by rw [append_right_cancel' e]; exact hm)), FS.set_same]
      · intro m hm
        rw [h3 m (fun n hn => hm n (by simp [hn])), FS.set_other _ _ (hm a (by simp)), FS.set_other _ _ (hm a (by simp))]
  obtain ⟨fs', h1, h2, h3⟩ := main names fs (fun _ h => h) hfile
  refine ⟨fs', ?_, h2, h3⟩
  unfold double2float
  split
  · exact absurd rfl hne
  · exact h1

/-- C60, the failure: naming a file that does not exist ends with status 1 — but an existing output
file of an earlier run is emptied. -/
theorem C60_missing_destroys {D F : Type} (cd : Codec D) (cf : Codec F) (narrow : D → F) (d : Disk) (fs : FS) (name : String)
    (rest : List String) (hname : name.utf8ByteSize < 121) (hf : fs name = none) (ho : d.opens (name ++ ".float") = true) :
    double2float cd cf narrow d fs (name :: rest) = .ok (1, fs.set (name ++ ".float") []) := by
  show double2floatLoop cd cf narrow d (name :: rest) fs = _
  rw [double2floatLoop, double2floatFile, outName_ok hname (by decide), ok_bind, hf]
  simp only
  rw [if_pos ho, ok_bind]

/-- Hypotheses met: two 8-byte values and a stray byte, written as 4-byte ones. -/
example : items (idx 8) ([1, 0, 0, 0, 0, 0, 0, 0, 2, 1, 0, 0, 0, 0, 0, 0, 7] : Bytes) = [1, 258] ∧
    (⟨fun _ => true, 8, 8⟩ : Disk).Works ((items (idx 8) ([1, 0, 0, 0, 0, 0, 0, 0, 2, 1, 0, 0, 0, 0, 0, 0, 7] : Bytes)).length * 4)
      "v.float" := ⟨by decide, rfl, by decide, by decide⟩

/-! ### permute -/

theorem readBinArray_items {α : Type} {c : Codec α} (hc : 0 < c.size) (malloc0 : Bool) (fs : FS) (name : String) (data : Bytes)
    (hf : fs name = some data) (h0 : items c data ≠ [] ∨ malloc0 = true) :
    readBinArray c malloc0 fs name = .ok (some (0, Buf.ofList (items c data), (items c data).length)) := by
  unfold readBinArray getFileSize
  rw [hf]
  simp only [Option.map_some]
  rw [cdiv_ok hc, ok_bind]
  have hlen := items_length c data
  rw [if_neg (by
    rintro ⟨h1, h2⟩
    rcases h0 with h0 | h0
    · exact h0 (List.eq_nil_of_length_eq_zero (by rw [hlen, h1]))
    · rw [h0] at h2; exact absurd h2 (by simp))]
  rw [freadArr_items hc data _ (Nat.le_refl _), ok_bind, if_neg (Nat.lt_irrefl _), ← hlen, List.take_length]

theorem readBinArray_missing {α : Type} (c : Codec α) (malloc0 : Bool) (fs : FS) (name : String) (hf : fs name = none) :
    readBinArray c malloc0 fs name = .ok none := by
  unfold readBinArray getFileSize
  rw [hf]
  rfl

theorem writeBinArray_snd {α : Type} {c : Codec α} {ok : α → Prop} (hc : c.Exact ok) (d : Disk) (fs : FS) (name : String) (l : List α)
    (hd : d.Works (l.length * c.size) name) : writeBinArray c d fs name l = (0, fs.set name (packed c l)) := by
  have h := fwriteArr_take (d := d) hc l [] (by simp)
  have hroom := hd.room
  have hkept := hd.kept
  unfold writeBinArray
  rw [if_pos hd.opens]
  refine Prod.ext ?_ ?_
  · simp only
    rw [h.2, if_neg]
    simp only [List.length_nil, Nat.sub_zero]
    have := (Nat.le_div_iff_mul_le hc.pos).2 hroom
    omega
  · simp only
    rw [h.1, Disk.close, List.take_take, List.nil_append, List.take_of_length_le (by rw [packed_length hc]; omega)]

theorem permuteFile_spec (malloc0 : Bool) (d : Disk) (fs : FS) (perm : Buf Nat) (n : Nat) (π : Nat → Nat)
    (hp : ∀ k, k < n → perm.get k = .ok (π k)) (name : String) (hname : name.utf8ByteSize < 118) (data : Bytes)
    (hf : fs name = some data) (h0 : items (idx 4) data ≠ [] ∨ malloc0 = true) (hlen : (items (idx 4) data).length < 2 ^ 32)
    (hin : ∀ i ∈ items (idx 4) data, i < n) (hd : d.Works data.length (name ++ ".permuted")) :
    permuteFile malloc0 d fs perm name =
      .ok (true, fs.set (name ++ ".permuted") (packed (idx 4) ((items (idx 4) data).map π))) := by
  unfold permuteFile
  rw [readBinArray_items (by decide) malloc0 fs name data hf h0, ok_bind]
  simp only
  rw [if_neg (by decide), toList_ofList _ _ rfl (fun _ => rfl), ok_bind, Nat.mod_eq_of_lt hlen, List.take_length, List.drop_length]
  have hm : permuteIndeces perm (items (idx 4) data) = .ok ((items (idx 4) data).map π) := mapM_ok _ _ _ (fun i h => hp i (hin i h))
  rw [hm, ok_bind, outName_ok hname (by decide), ok_bind, List.append_nil, writeBinArray_snd idx4_exact]
  have h4 : ((items (idx 4) data).map π).length * (idx 4).size ≤ data.length := by
    rw [List.length_map, items_length]; exact Nat.div_mul_le_self _ _
  exact ⟨hd.opens, Nat.le_trans h4 hd.room, Nat.le_trans h4 hd.kept⟩

/-- `j` is what the vector `p` holds at `i`. -/
def At (p : List Nat) (i j : Nat) : Prop := p[i]? = some j

/-- **C61.** With a permutation vector long enough for all indices, the exit status is 0, the file
`.permuted` beside each index file holds for every index `i`, in order, the entry `p[i]` of the vector,
and no other file is touched. -/
theorem C61_permutes (malloc0 : Bool) (d : Disk) (fs : FS) (frow fcol fperm : String) (rdata cdata pdata : Bytes)
    (hr : fs frow = some rdata) (hc : fs fcol = some cdata) (hp : fs fperm = some pdata)
    (hr1 : frow.utf8ByteSize < 118) (hc1 : fcol.utf8ByteSize < 118) (hrc : frow ≠ fcol ++ ".permuted")
    (h0 : (items (idx 4) rdata ≠ [] ∧ items (idx 4) cdata ≠ [] ∧ items (idx 4) pdata ≠ []) ∨ malloc0 = true)
    (hr2 : (items (idx 4) rdata).length < 2 ^ 32) (hc2 : (items (idx 4) cdata).length < 2 ^ 32)
    (hrin : ∀ i ∈ items (idx 4) rdata, i < (items (idx 4) pdata).length)
    (hcin : ∀ i ∈ items (idx 4) cdata, i < (items (idx 4) pdata).length)
    (hdr : d.Works rdata.length (frow ++ ".permuted")) (hdc : d.Works cdata.length (fcol ++ ".permuted")) :
    ∃ fs' I' J', permuteTool false malloc0 d fs [frow, fcol, fperm] = .ok (0, fs') ∧
      fs' (frow ++ ".permuted") = some (packed (idx 4) I') ∧ fs' (fcol ++ ".permuted") = some (packed (idx 4) J') ∧
      List.Forall₂ (At (items (idx 4) pdata)) (items (idx 4) rdata) I' ∧
      List.Forall₂ (At (items (idx 4) pdata)) (items (idx 4) cdata) J' ∧
      ∀ m, m ≠ frow ++ ".permuted" → m ≠ fcol ++ ".permuted" → fs' m = fs m := by
  let π : Nat → Nat := fun i => (items (idx 4) pdata)[i]?.getD 0
  have hπ : ∀ k, k < (items (idx 4) pdata).length → (Buf.ofList (items (idx 4) pdata)).get k = .ok (π k) := fun k hk =>
    Buf.get_ok (by simpa using hk) (by simp [π, hk])
  have hat : ∀ l : List Nat, (∀ i ∈ l, i < (items (idx 4) pdata).length) → List.Forall₂ (At (items (idx 4) pdata)) l (l.map π) := by
    intro l hl
    rw [List.forall₂_map_right_iff, List.forall₂_same]
    intro i hi
    simp [At, π, hl i hi]
  have hfs1 : (fs.set (fcol ++ ".permuted") (packed (idx 4) ((items (idx 4) cdata).map π))) frow = some rdata := by
    rw [FS.set_other _ _ hrc, hr]
  refine ⟨_, (items (idx 4) rdata).map π, (items (idx 4) cdata).map π, ?_,
    FS.set_same (fs.set (fcol ++ ".permuted") (packed (idx 4) ((items (idx 4) cdata).map π))) _ _, ?_, hat _ hrin, hat _ hcin,
    fun m h1 h2 => ?_⟩
  rotate_left
  · by_cases e : fcol = frow
    · subst e
      rw [hr] at hc
      cases hc
      rw [FS.set_same]
    · rw [FS.set_other _ _ (fun h => e (append_right_cancel' h)), FS.set_same]
  · rw [FS.set_other _ _ h1, FS.set_other _ _ h2]
  · unfold permuteTool
    simp only
    rw [readBinArray_items (by decide) malloc0 fs fperm pdata hp (by tauto), ok_bind]
    simp only
    rw [if_neg (by decide), if_neg (by decide), ok_bind,
      permuteFile_spec malloc0 d fs _ _ π hπ fcol hc1 cdata hc (by tauto) hc2 hcin hdc, ok_bind]
    simp only [if_true]
    rw [permuteFile_spec malloc0 d _ _ _ π hπ frow hr1 rdata hfs1 (by tauto) hr2 hrin hdr, ok_bind]
    simp only [if_true]

/-- **C61**, compiled with `INVPERM`: for a vector that is a permutation every index `i` becomes the
place where the vector holds `i`. -/
theorem C61_inverse (malloc0 : Bool) (d : Disk) (fs : FS) (frow fcol fperm : String) (rdata cdata pdata : Bytes)
    (hr : fs frow = some rdata) (hc : fs fcol = some cdata) (hp : fs fperm = some pdata)
    (hr1 : frow.utf8ByteSize < 118) (hc1 : fcol.utf8ByteSize < 118) (hrc : frow ≠ fcol ++ ".permuted")
    (h0 : (items (idx 4) rdata ≠ [] ∧ items (idx 4) cdata ≠ [] ∧ items (idx 4) pdata ≠ []) ∨ malloc0 = true)
    (hr2 : (items (idx 4) rdata).length < 2 ^ 32) (hc2 : (items (idx 4) cdata).length < 2 ^ 32)
    (hp2 : (items (idx 4) pdata).length < 2 ^ 32)
    (hperm : (items (idx 4) pdata).Nodup ∧ ∀ v ∈ items (idx 4) pdata, v < (items (idx 4) pdata).length)
    (hrin : ∀ i ∈ items (idx 4) rdata, i < (items (idx 4) pdata).length)
    (hcin : ∀ i ∈ items (idx 4) cdata, i < (items (idx 4) pdata).length)
    (hdr : d.Works rdata.length (frow ++ ".permuted")) (hdc : d.Works cdata.length (fcol ++ ".permuted")) :
    ∃ fs' I' J', permuteTool true malloc0 d fs [frow, fcol, fperm] = .ok (0, fs') ∧
      fs' (frow ++ ".permuted") = some (packed (idx 4) I') ∧ fs' (fcol ++ ".permuted") = some (packed (idx 4) J') ∧
      List.Forall₂ (fun i j => At (items (idx 4) pdata) j i) (items (idx 4) rdata) I' ∧
      List.Forall₂ (fun i j => At (items (idx 4) pdata) j i) (items (idx 4) cdata) J' ∧
      ∀ m, m ≠ frow ++ ".permuted" → m ≠ fcol ++ ".permuted" → fs' m = fs m := by
  let π : Nat → Nat := fun i => (items (idx 4) pdata)[i]?.getD 0
  have hπe : ∀ k (hk : k < (items (idx 4) pdata).length), π k = (items (idx 4) pdata)[k] := fun k hk => by simp [π, hk]
  have hπ : ∀ k, k < (items (idx 4) pdata).length → (Buf.ofList (items (idx 4) pdata)).get k = .ok (π k) := fun k hk =>
    Buf.get_ok (by simpa using hk) (by simp [π, hk])
  have hP : IsPerm (items (idx 4) pdata).length π := ⟨fun k hk => by rw [hπe k hk]; exact hperm.2 _ (List.getElem_mem hk),
    fun j k hj hk e => by rw [hπe j hj, hπe k hk] at e; exact (List.Nodup.getElem_inj_iff hperm.1).1 e⟩
  obtain ⟨q, σ, -, q1, q2, q3, q4, q5, -⟩ := C32_invert _ _ π hπ hP
  have hat : ∀ l : List Nat, (∀ i ∈ l, i < (items (idx 4) pdata).length) →
      List.Forall₂ (fun i j => At (items (idx 4) pdata) j i) l (l.map σ) := by
    intro l hl
    rw [List.forall₂_map_right_iff, List.forall₂_same]
    intro i hi
    have h1 := q4.lt i (hl i hi)
    have h2 := (q5 i (hl i hi)).2
    rw [hπe _ h1] at h2
    simp [At, h1, h2]
  have hfs1 : (fs.set (fcol ++ ".permuted") (packed (idx 4) ((items (idx 4) cdata).map σ))) frow = some rdata := by
    rw [FS.set_other _ _ hrc, hr]
  refine ⟨_, (items (idx 4) rdata).map σ, (items (idx 4) cdata).map σ, ?_,
    FS.set_same (fs.set (fcol ++ ".permuted") (packed (idx 4) ((items (idx 4) cdata).map σ))) _ _, ?_, hat _ hrin, hat _ hcin,
    fun m h1 h2 => ?_⟩
  rotate_left
  · by_cases e : fcol = frow
    · subst e
      rw [hr] at hc
      cases hc
      rw [FS.set_same]
    · rw [FS.set_other _ _ (fun h => e (append_right_cancel' h)), FS.set_same]
  · rw [FS.set_other _ _ h1, FS.set_other _ _ h2]
  · unfold permuteTool
    simp only
    rw [readBinArray_items (by decide) malloc0 fs fperm pdata hp (by tauto), ok_bind]
    simp only
    rw [if_neg (by decide), if_pos trivial, Nat.mod_eq_of_lt hp2, q1, ok_bind,
      permuteFile_spec malloc0 d fs _ _ σ q3 fcol hc1 cdata hc (by tauto) hc2 hcin hdc, ok_bind]
    simp only [if_true]
    rw [permuteFile_spec malloc0 d _ _ _ σ q3 frow hr1 rdata hfs1 (by tauto) hr2 hrin hdr, ok_bind]
    simp only [if_true]

/-- C61, what is not checked: an index beyond the vector reads outside the array. -/
theorem C61_out_of_range (malloc0 : Bool) (d : Disk) (fs : FS) (frow fcol fperm : String) (cdata pdata : Bytes)
    (hc : fs fcol = some cdata) (hp : fs fperm = some pdata)
    (h0 : (items (idx 4) cdata ≠ [] ∧ items (idx 4) pdata ≠ []) ∨ malloc0 = true)
    (hc2 : (items (idx 4) cdata).length < 2 ^ 32)
    (hbad : ∃ i ∈ items (idx 4) cdata, (items (idx 4) pdata).length ≤ i) :
    permuteTool false malloc0 d fs [frow, fcol, fperm] = .error .oob := by
  unfold permuteTool
  simp only
  rw [readBinArray_items (by decide) malloc0 fs fperm pdata hp (by tauto), ok_bind]
  simp only
  rw [if_neg (by decide), if_neg (by decide), ok_bind]
  have : permuteFile malloc0 d fs (Buf.ofList (items (idx 4) pdata)) fcol = .error .oob := by
    unfold permuteFile
    rw [readBinArray_items (by decide) malloc0 fs fcol cdata hc (by tauto), ok_bind]
    simp only
    rw [if_neg (by decide), toList_ofList _ _ rfl (fun _ => rfl), ok_bind, Nat.mod_eq_of_lt hc2, List.take_length]
    have : ∀ l : List Nat, (∃ i ∈ l, (items (idx 4) pdata).length ≤ i) →
        permuteIndeces (Buf.ofList (items (idx 4) pdata)) l = .error .oob := by
      intro l
      induction l with
      | nil => rintro ⟨i, h, -⟩; simp at h
      | cons a l ih =>
        rintro ⟨i, h, hi⟩
        unfold permuteIndeces
        rw [List.mapM_cons]
        by_cases ha : a < (items (idx 4) pdata).length
        · have : permuteOne (Buf.ofList (items (idx 4) pdata)) a = .ok (items (idx 4) pdata)[a] :=
            Buf.get_ok (by simpa using ha) (by simp [ha])
          rw [this, ok_bind]
          have h2 := ih ⟨i, by rcases List.mem_cons.1 h with rfl | h; omega; exact h, hi⟩
          unfold permuteIndeces at h2
          rw [h2]
          rfl
        · have : permuteOne (Buf.ofList (items (idx 4) pdata)) a = .error .oob := by
            unfold permuteOne Buf.get
            rw [if_neg (by simpa using ha)]
          rw [this]
          rfl
    rw [this _ hbad]
    rfl
  rw [this]
  rfl

/-- Hypotheses met: the vector 2 0 1 and indices 0 2 2. -/
example : items (idx 4) (packed (idx 4) [2, 0, 1]) = [2, 0, 1] ∧ ([2, 0, 1] : List Nat).Nodup ∧
    List.Forall₂ (At [2, 0, 1]) [0, 2, 2] [2, 1, 1] :=
  ⟨by decide, by decide, .cons rfl (.cons rfl (.cons rfl .nil))⟩

end Gsb
