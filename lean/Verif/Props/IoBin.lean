import Verif.Proof.IoBin
/-
C35–C39: binary files.
-/
namespace Gsb
variable {ε T : Type} [NZ ε T] {w : Nat} {cv : Codec T}

theorem FS.set_same (fs : FS) (n : String) (b : Bytes) : (fs.set n b) n = some b := by simp [FS.set]
theorem FS.set_other (fs : FS) {n m : String} (b : Bytes) (h : n ≠ m) : (fs.set m b) n = fs n := by simp [FS.set, h]

theorem binFile_length (hw : 0 < w) (hv : cv.Exact (fun _ => True)) (rows columns : Nat) (es : List (Ent T)) :
    (binFile w cv rows columns es).length = 3 * w + es.length * w + es.length * w + es.length * cv.size := by
  simp only [binFile, List.length_append, packed_length (idx_exact hw), packed_length hv, List.length_map,
    List.length_cons, List.length_nil]
  show 3 * w + _ * w + _ * w + _ = _
  rfl

theorem binFile_cases (rows columns : Nat) (es : List (Ent T)) :
    binFile w cv rows columns es = leBytes w rows ++ (leBytes w columns ++ (leBytes w es.length ++
      (packed (idx w) (es.map Ent.row) ++ (packed (idx w) (es.map Ent.col) ++ packed cv (es.map Ent.val))))) := by
  simp [binFile, idx, packed]

/-- What the writer leaves, for every way the disk behaves. -/
theorem writeBinCoo_eq (hw : 0 < w) (hv : cv.Exact (fun _ => True)) (d : Disk) (fs : FS) (name : String)
    (rows columns : Nat) (es : List ε) (ho : d.opens name = true) :
    writeBinCoo w cv d fs name rows columns es =
      (0, fs.set name ((binFile w cv rows columns (ents es)).take (min d.kept d.room))) := by
  unfold writeBinCoo
  rw [if_pos ho]
  simp only
  rw [fwriteEach_nil_take (idx_exact hw), fwriteEach_take (idx_exact hw), fwriteEach_take (idx_exact hw),
    fwriteEach_take hv]
  simp only [Disk.close, List.take_take, binFile, ents, List.map_map, List.length_map]
  rfl

theorem mapM_ents (l : List (Ent T)) (rows columns : Option Nat) :
    (⟨Buf.ofList (l.map Ent.row), Buf.ofList (l.map Ent.col), Buf.ofList (l.map Ent.val), rows, columns,
      some l.length⟩ : CooA T).ents = .ok l := by
  unfold CooA.ents
  simp only
  have : ∀ n, n ≤ l.length → (List.range n).mapM (CooA.ent (⟨Buf.ofList (l.map Ent.row), Buf.ofList (l.map Ent.col),
      Buf.ofList (l.map Ent.val), rows, columns, some l.length⟩ : CooA T)) = .ok (l.take n) := by
    intro n hn
    induction n with
    | zero => rfl
    | succ n ih =>
      rw [List.range_succ, List.mapM_append, ih (by omega), List.mapM_cons, List.mapM_nil]
      have e : ∀ {β : Type} (g : Ent T → β), (Buf.ofList (l.map g)).get n = .ok (g l[n]) := fun g =>
        Buf.get_ok (by simp; omega) (by simp [show n < l.length by omega])
      simp only [CooA.ent, e, ok_bind]
      show Except.ok (l.take n ++ [l[n]]) = _
      rw [List.take_append_getElem]
  rw [this _ (Nat.le_refl _), List.take_length]

theorem readBinCoo_file (hw : 0 < w) (hv : cv.Exact (fun _ => True)) (fs : FS) (name : String)
    (rows columns : Nat) (es : List (Ent T)) (hr : rows < 256 ^ w) (hcol : columns < 256 ^ w)
    (hlen : es.length < 256 ^ w) (hin : ∀ e ∈ es, e.row < 256 ^ w ∧ e.col < 256 ^ w) (t : Bytes)
    (hf : fs name = some (binFile w cv rows columns es ++ t)) :
    readBinCoo w cv fs name = .ok (0, ⟨Buf.ofList (es.map Ent.row), Buf.ofList (es.map Ent.col),
      Buf.ofList (es.map Ent.val), some rows, some columns, some es.length⟩) := by
  have hi := idx_exact hw
  have h256 : 256 ≤ 256 ^ w := by
    have := Nat.pow_le_pow_right (n := 256) (by omega) (show 1 ≤ w from hw); simpa using this
  have hsz : (idx w).size = w := rfl
  have hdata : ∀ p, (⟨binFile w cv rows columns es ++ t, p⟩ : In).rest = (binFile w cv rows columns es ++ t).drop p := fun _ => rfl
  have hl : ∀ n, (leBytes w n).length = w := leBytes_length w
  unfold readBinCoo
  rw [hf]
  simp only
  rw [fread1_enc hi (a := rows) (t := (leBytes w columns ++ (leBytes w es.length ++
      (packed (idx w) (es.map Ent.row) ++ (packed (idx w) (es.map Ent.col) ++ packed cv (es.map Ent.val))))) ++ t) hr (by
    rw [hdata, binFile_cases]; simp [idx])]
  simp only
  rw [fread1_enc hi (a := columns) (t := (leBytes w es.length ++
      (packed (idx w) (es.map Ent.row) ++ (packed (idx w) (es.map Ent.col) ++ packed cv (es.map Ent.val)))) ++ t) hcol (by
    rw [hdata, binFile_cases, hsz, List.append_assoc, List.drop_left' (by rw [hl]; omega)]; simp [idx])]
  simp only
  rw [fread1_enc hi (a := es.length) (t := (
      (packed (idx w) (es.map Ent.row) ++ (packed (idx w) (es.map Ent.col) ++ packed cv (es.map Ent.val)))) ++ t) (by omega) (by
    rw [hdata, binFile_cases, hsz, List.append_assoc, ← List.drop_drop, List.drop_left' (by rw [hl]; omega), List.append_assoc,
      List.drop_left' (by rw [hl])]; simp [idx])]
  simp only
  rw [addM_eq (show 1 + 1 < 256 ^ w by omega), addM_eq (show 1 + 1 + 1 < 256 ^ w by omega), if_neg (by decide)]
  simp only [readBinCooData]
  have hd3 : ∀ x : Bytes, (leBytes w rows ++ (leBytes w columns ++ (leBytes w es.length ++ x))).drop (0 + w + w + w) = x := by
    intro x
    rw [← List.drop_drop, ← List.drop_drop, List.drop_left' (by rw [hl]; omega), List.drop_left' (by rw [hl]), List.drop_left' (by rw [hl])]
  have hrest : (binFile w cv rows columns es ++ t).drop (0 + w + w + w) =
      packed (idx w) (es.map Ent.row) ++ (packed (idx w) (es.map Ent.col) ++ (packed cv (es.map Ent.val) ++ t)) := by
    rw [binFile_cases]
    simp only [List.append_assoc]
    exact hd3 _
  have lr : (es.map Ent.row).length = es.length := by simp
  have lc : (es.map Ent.col).length = es.length := by simp
  have lv : (es.map Ent.val).length = es.length := by simp
  obtain ⟨b1, h1⟩ := readLoop_content (M := 256 ^ w) hi (es.map Ent.row) (fun a ha => by
    obtain ⟨e, he, rfl⟩ := List.mem_map.1 ha; exact (hin e he).1) 0 none
    ⟨binFile w cv rows columns es ++ t, 0 + (idx w).size + (idx w).size + (idx w).size⟩ _ (by omega) hrest
  rw [lr] at h1
  rw [h1, ok_bind]
  simp only
  obtain ⟨b2, h2⟩ := readLoop_content (M := 256 ^ w) hi (es.map Ent.col) (fun a ha => by
    obtain ⟨e, he, rfl⟩ := List.mem_map.1 ha; exact (hin e he).2) ((0 + es.length) % 256 ^ w) b1
    ⟨binFile w cv rows columns es ++ t, 0 + (idx w).size + (idx w).size + (idx w).size + es.length * (idx w).size⟩
    (packed cv (es.map Ent.val) ++ t) (Nat.mod_lt _ (by omega)) (by
      rw [hdata, ← List.drop_drop]
      simp only [hsz]
      rw [hrest, List.drop_left' (by rw [packed_length hi, lr, hsz])])
  rw [lc] at h2
  rw [h2, ok_bind]
  simp only
  obtain ⟨b3, h3⟩ := readLoop_content (M := 256 ^ w) hv (es.map Ent.val) (fun a _ => trivial) (((0 + es.length) % 256 ^ w + es.length) % 256 ^ w) none
    ⟨binFile w cv rows columns es ++ t, 0 + (idx w).size + (idx w).size + (idx w).size + es.length * (idx w).size +
      es.length * (idx w).size⟩ t (Nat.mod_lt _ (by omega)) (by
      rw [hdata, ← List.drop_drop, ← List.drop_drop]
      simp only [hsz]
      rw [hrest, List.drop_left' (by rw [packed_length hi, lr, hsz]), List.drop_left' (by rw [packed_length hi, lc, hsz])])
  rw [lv] at h3
  rw [h3, ok_bind]
  simp only
  have hc : (((0 + es.length) % 256 ^ w + es.length) % 256 ^ w + es.length) % 256 ^ w = mulM (256 ^ w) 3 es.length := by
    unfold mulM
    rw [Nat.mod_add_mod, Nat.add_assoc, Nat.mod_add_mod]
    congr 1; omega
  rw [hc, if_neg (by simp)]

/-- **C35.** Writing a matrix and reading it back gives the same dimensions and entries, in order. -/
theorem C35_bin_roundtrip (hw : 0 < w) (hv : cv.Exact (fun _ => True)) (d : Disk) (fs : FS) (name : String)
    (rows columns : Nat) (es : List ε) (hr : rows < 256 ^ w) (hcol : columns < 256 ^ w)
    (hlen : es.length < 256 ^ w) (hin : InRange (ents es) rows columns)
    (hd : d.Works (binFile w cv rows columns (ents es)).length name) :
    ∃ fs' A, writeBinCoo w cv d fs name rows columns es = (0, fs') ∧
      fs' name = some (binFile w cv rows columns (ents es)) ∧ (∀ n, n ≠ name → fs' n = fs n) ∧
      readBinCoo w cv fs' name = .ok (0, A) ∧ A.rows = some rows ∧ A.columns = some columns ∧
      A.nnz = some es.length ∧ A.ents = .ok (ents es) := by
  have hfile := writeBinCoo_eq hw hv d fs name rows columns es hd.opens
  rw [List.take_of_length_le (by have := hd.room; have := hd.kept; omega)] at hfile
  have hl : (ents es).length = es.length := by simp [ents]
  refine ⟨_, _, hfile, FS.set_same _ _ _, fun n hn => FS.set_other _ _ hn, readBinCoo_file hw hv _ name rows columns (ents es) hr hcol (by rw [hl]; exact hlen)
      (fun e he => by have := hin e he; omega) [] (by rw [FS.set_same]; simp), rfl, rfl, ?_, ?_⟩
  · simp only [hl]
  · exact mapM_ents _ _ _

/-- The same for any two 32-bit dimensions and a value type of 4 bytes stored as its bits. -/
example : (idx 4).Exact (· < 256 ^ 4) ∧ InRange (ents [(⟨1, 0, 7⟩ : Ent Nat), ⟨0, 2, 9⟩]) 2 3 ∧
    (⟨fun _ => true, 1000, 1000⟩ : Disk).Works
      (binFile 4 (idx 4) 2 3 (ents [(⟨1, 0, 7⟩ : Ent Nat), ⟨0, 2, 9⟩])).length "a.bin" :=
  ⟨idx_exact (by decide), by decide, rfl, by decide, by decide⟩

/-! ### Truncated files -/

theorem fread1_take_short {α : Type} {c : Codec α} (hc : 0 < c.size) (f : In) (v : Option α) :
    (fread1 c f v).1 = min 1 (f.rest.length / c.size) ∧ (fread1 c f v).2.2.data = f.data ∧
      (fread1 c f v).2.2.rest = f.rest.drop c.size := by
  obtain ⟨v', f', h1, h2, h3⟩ := fread1_pos (f := f) (v := v) hc
  rw [h1]; exact ⟨rfl, h2, h3⟩

/-- The reader on the first `k` bytes of a file: -2 when the header is cut, otherwise the number of
whole items found is compared with `3 * nnz` modulo the number of index values. -/
theorem readBinCoo_cut (hw : 0 < w) (hv : cv.Exact (fun _ => True)) (fs : FS) (name : String)
    (rows columns : Nat) (es : List (Ent T)) (hr : rows < 256 ^ w) (hcol : columns < 256 ^ w)
    (hlen : es.length < 256 ^ w) (k : Nat) (hk : k ≤ (binFile w cv rows columns es).length)
    (hf : fs name = some ((binFile w cv rows columns es).take k)) :
    ∃ code A, readBinCoo w cv fs name = .ok (code, A) ∧ (k < 3 * w → code = -2) ∧
      (3 * w ≤ k → code = if (min es.length ((k - 3 * w) / w) + min es.length ((k - 3 * w - es.length * w) / w) +
        min es.length ((k - 3 * w - es.length * w - es.length * w) / cv.size)) % 256 ^ w ≠ (3 * es.length) % 256 ^ w
        then -4 else 0) := by
  have hi := idx_exact hw
  have h256 : 256 ≤ 256 ^ w := by
    have := Nat.pow_le_pow_right (n := 256) (by omega) (show 1 ≤ w from hw); simpa using this
  have hsz : (idx w).size = w := rfl
  have hl : ∀ n, (leBytes w n).length = w := leBytes_length w
  have hk0 : ((binFile w cv rows columns es).take k).length = k := by simp; omega
  unfold readBinCoo
  rw [hf]
  simp only
  generalize hr1 : fread1 (idx w) ⟨(binFile w cv rows columns es).take k, 0⟩ none = r1
  generalize hr2 : fread1 (idx w) r1.2.2 none = r2
  generalize hr3 : fread1 (idx w) r2.2.2 none = r3
  have a1 := fread1_take_short (c := idx w) hw ⟨(binFile w cv rows columns es).take k, 0⟩ none
  rw [hr1] at a1
  have a2 := fread1_take_short (c := idx w) hw r1.2.2 none
  rw [hr2] at a2
  have a3 := fread1_take_short (c := idx w) hw r2.2.2 none
  rw [hr3] at a3
  have e0 : (⟨(binFile w cv rows columns es).take k, 0⟩ : In).rest = (binFile w cv rows columns es).take k := rfl
  rw [e0, hk0] at a1
  have c1 := a1.2.2
  have c2 := a2.2.2
  have c3 := a3.2.2
  have n1 := a1.1
  have n2 := a2.1
  have n3 := a3.1
  rw [c1, List.drop_drop] at c2
  rw [c2, List.drop_drop] at c3
  rw [c1, List.length_drop, hk0] at n2
  rw [c2, List.length_drop, hk0] at n3
  simp only [hsz] at n1 n2 n3 c3
  have q1 : 1 ≤ k / w ↔ w ≤ k := Nat.one_le_div_iff hw
  have q2 : 1 ≤ (k - w) / w ↔ w ≤ k - w := Nat.one_le_div_iff hw
  have q3 : 1 ≤ (k - (w + w)) / w ↔ w ≤ k - (w + w) := Nat.one_le_div_iff hw
  by_cases hh : k < 3 * w
  · have : addM (256 ^ w) (addM (256 ^ w) r1.1 r2.1) r3.1 ≠ 3 := by
      rw [addM_eq (show r1.1 + r2.1 < 256 ^ w by omega), addM_eq (by omega)]
      omega
    rw [if_pos this]
    exact ⟨_, _, rfl, fun _ => rfl, fun h => by omega⟩
  · have h3 : addM (256 ^ w) (addM (256 ^ w) r1.1 r2.1) r3.1 = 3 := by
      rw [addM_eq (show r1.1 + r2.1 < 256 ^ w by omega), addM_eq (by omega)]
      omega
    rw [if_neg (by rw [h3]; simp)]
    have hnnz : r3.2.1 = some es.length := by
      rw [← hr3]
      have : r2.2.2.rest = (idx w).enc es.length ++ (List.take (k - 3 * w)
          (packed (idx w) (es.map Ent.row) ++ (packed (idx w) (es.map Ent.col) ++ packed cv (es.map Ent.val)))) := by
        rw [c2, binFile_cases, List.drop_take, ← List.drop_drop]
        simp only [hsz]
        rw [List.drop_left' (hl _), List.drop_left' (hl _), List.take_append]
        rw [List.take_of_length_le (by rw [hl]; omega), hl]
        congr 2
        omega
      rw [fread1_enc hi hlen this]
    rw [hnnz]
    simp only [readBinCooData]
    have hL : r3.2.2.rest.length = k - 3 * w := by rw [c3, List.length_drop, hk0]; omega
    obtain ⟨s1, p1, p2, p3, p4, p5⟩ := readLoop_count (M := 256 ^ w) (c := idx w) (n := es.length) hw
      (0, none, r3.2.2, Buf.uninit es.length) (by simp only; omega) (Nat.le_refl _)
    rw [p1, ok_bind]
    obtain ⟨s2, t1, t2, t3, t4, t5⟩ := readLoop_count (M := 256 ^ w) (c := idx w) (n := es.length) hw
      (s1.1, s1.2.1, s1.2.2.1, Buf.uninit es.length) (by simp only; rw [p2]; exact Nat.mod_lt _ (by omega)) (Nat.le_refl _)
    rw [t1, ok_bind]
    obtain ⟨s3, u1, u2, u3, u4, u5⟩ := readLoop_count (M := 256 ^ w) (c := cv) (n := es.length) hv.pos
      (s2.1, none, s2.2.2.1, Buf.uninit es.length) (by simp only; rw [t2]; exact Nat.mod_lt _ (by omega)) (Nat.le_refl _)
    rw [u1, ok_bind]
    refine ⟨_, _, rfl, fun h => absurd h hh, fun _ => ?_⟩
    simp only at p2 t2 u2 p4 t4
    rw [hL, Nat.zero_add, hsz] at p2
    rw [p4, List.length_drop, hL, hsz] at t2
    rw [t4, List.length_drop, p4, List.length_drop, hL, hsz] at u2
    rw [p2, Nat.mod_add_mod] at t2
    rw [t2, Nat.mod_add_mod] at u2
    rw [u2]
    simp only [mulM]
    rfl

/-- **C36.** Every proper prefix of a written file — every crash point of the writer — is rejected
with a negative code, as long as `3 * nnz` is an index value. -/
theorem C36_truncated_rejected (hw : 0 < w) (hv : cv.Exact (fun _ => True)) (fs : FS) (name : String)
    (rows columns : Nat) (es : List (Ent T)) (hr : rows < 256 ^ w) (hcol : columns < 256 ^ w)
    (hlen : 3 * es.length < 256 ^ w) (k : Nat) (hk : k < (binFile w cv rows columns es).length)
    (hf : fs name = some ((binFile w cv rows columns es).take k)) :
    ∃ code A, readBinCoo w cv fs name = .ok (code, A) ∧ code < 0 := by
  obtain ⟨code, A, h1, h2, h3⟩ := readBinCoo_cut hw hv fs name rows columns es hr hcol (by omega) k (by omega) hf
  refine ⟨code, A, h1, ?_⟩
  by_cases hh : k < 3 * w
  · rw [h2 hh]; decide
  · have hpos := hv.pos
    rw [h3 (by omega), if_pos]
    · decide
    · rw [binFile_length hw hv] at hk
      have hm1 := Nat.min_le_left es.length ((k - 3 * w) / w)
      have hm2 := Nat.min_le_left es.length ((k - 3 * w - es.length * w) / w)
      have hm3 : min es.length ((k - 3 * w - es.length * w - es.length * w) / cv.size) < es.length ∨ (es.length = 0) := by
        by_cases h0 : es.length = 0
        · exact .inr h0
        · left
          have : (k - 3 * w - es.length * w - es.length * w) / cv.size < es.length := by
            rw [Nat.div_lt_iff_lt_mul hpos]
            have : 0 < es.length * cv.size := Nat.mul_pos (by omega) hpos
            omega
          omega
      rcases hm3 with hm3 | hm3
      · rw [Nat.mod_eq_of_lt hlen, Nat.mod_eq_of_lt (by omega)]; omega
      · rw [hm3] at hk; simp at hk; omega

/-- The bound in C36 is needed: with `3 * nnz` at or above the number of index values, a file cut so
that exactly that many items are missing is accepted with code 0. -/
theorem C36_counter_wraps (hw : 0 < w) (hv : cv.Exact (fun _ => True)) (name : String)
    (rows columns : Nat) (es : List (Ent T)) (hr : rows < 256 ^ w) (hcol : columns < 256 ^ w)
    (hlen : es.length < 256 ^ w) (hbig : 256 ^ w ≤ 3 * es.length) :
    ∃ k, k < (binFile w cv rows columns es).length ∧ ∀ fs : FS,
      fs name = some ((binFile w cv rows columns es).take k) →
      ∃ A, readBinCoo w cv fs name = .ok (0, A) := by
  have hpos := hv.pos
  have hL := binFile_length hw hv rows columns es
  have hbound : (3 * es.length - 256 ^ w) * w ≤ es.length * w + es.length * w := by
    rw [← Nat.add_mul]; exact Nat.mul_le_mul_right _ (by omega)
  have h0 : 0 < es.length * cv.size := Nat.mul_pos (by
    have : 0 < 256 ^ w := Nat.pow_pos (by omega)
    omega) hpos
  refine ⟨3 * w + (3 * es.length - 256 ^ w) * w, by omega, fun fs hf => ?_⟩
  obtain ⟨code, A, h1, h2, h3⟩ := readBinCoo_cut hw hv fs name rows columns es hr hcol hlen _ (by omega) hf
  refine ⟨A, ?_⟩
  rw [h1, h3 (by omega), if_neg]
  rw [Nat.add_sub_cancel_left, Nat.mul_div_cancel _ hw, ← Nat.sub_mul, Nat.mul_div_cancel _ hw]
  rw [show (3 * es.length - 256 ^ w - es.length) * w - es.length * w = 0 by
    rw [← Nat.sub_mul, show 3 * es.length - 256 ^ w - es.length - es.length = 0 by omega, Nat.zero_mul]]
  rw [Nat.zero_div]
  have : min es.length (3 * es.length - 256 ^ w) + min es.length (3 * es.length - 256 ^ w - es.length) + min es.length 0 =
      3 * es.length - 256 ^ w := by omega
  rw [this]
  simp only [ne_eq, Decidable.not_not]
  conv_rhs => rw [show 3 * es.length = (3 * es.length - 256 ^ w) + 256 ^ w by omega, Nat.add_mod_right]

/-! ### Failing writes -/

/-- **C37.** Whatever the disk does once the file is open, the writer returns 0 and leaves a prefix of
the file. -/
theorem C37_write_failure_unreported (hw : 0 < w) (hv : cv.Exact (fun _ => True)) (d : Disk) (fs : FS) (name : String)
    (rows columns : Nat) (es : List ε) (ho : d.opens name = true) :
    ∃ fs', writeBinCoo w cv d fs name rows columns es = (0, fs') ∧
      fs' name = some ((binFile w cv rows columns (ents es)).take (min d.kept d.room)) :=
  ⟨_, writeBinCoo_eq hw hv d fs name rows columns es ho, FS.set_same _ _ _⟩

/-- C37 with C36: if a failed write lost anything, the success code of the writer is contradicted by
the reader. -/
theorem C37_reader_notices (hw : 0 < w) (hv : cv.Exact (fun _ => True)) (d : Disk) (fs : FS) (name : String)
    (rows columns : Nat) (es : List ε) (hr : rows < 256 ^ w) (hcol : columns < 256 ^ w)
    (hlen : 3 * es.length < 256 ^ w) (ho : d.opens name = true)
    (hlost : min d.kept d.room < (binFile w cv rows columns (ents es)).length) :
    ∃ fs' code A, writeBinCoo w cv d fs name rows columns es = (0, fs') ∧
      readBinCoo w cv fs' name = .ok (code, A) ∧ code < 0 := by
  obtain ⟨fs', h1, h2⟩ := C37_write_failure_unreported (cv := cv) hw hv d fs name rows columns es ho
  obtain ⟨code, A, h3, h4⟩ := C36_truncated_rejected hw hv fs' name rows columns (ents es) hr hcol
    (by simpa [ents] using hlen) _ hlost h2
  exact ⟨fs', code, A, h1, h3, h4⟩

/-- **C37** for arrays: `write_bin_array` returns -2 exactly when `fwrite` could not take everything;
a loss at `fclose` is not reported. -/
theorem C37_array_short_write {α : Type} {c : Codec α} {ok : α → Prop} (hc : c.Exact ok) (d : Disk) (fs : FS) (name : String)
    (l : List α) (ho : d.opens name = true) :
    ∃ ret fs', writeBinArray c d fs name l = (ret, fs') ∧
      fs' name = some ((packed c l).take (min d.kept d.room)) ∧
      (ret = -2 ↔ d.room < (packed c l).length) ∧ (ret ≠ -2 → ret = 0) := by
  have h := fwriteArr_take (d := d) hc l [] (by simp)
  have hpos := hc.pos
  refine ⟨_, _, by unfold writeBinArray; rw [if_pos ho], ?_, ?_, ?_⟩
  · rw [FS.set_same, Disk.close, h.1, List.nil_append, List.take_take]
  · rw [h.2, packed_length hc]
    simp only [List.length_nil, Nat.sub_zero]
    have : d.room / c.size < l.length ↔ d.room < l.length * c.size := Nat.div_lt_iff_lt_mul hpos
    split
    · rename_i h1; simp only [true_iff]; omega
    · rename_i h1; simp only [Int.reduceNeg, reduceCtorEq, false_iff]; omega
  · split <;> simp

/-- Such a disk: it takes 100 bytes, and only 5 of them survive. -/
example : writeBinArray (idx 4) ⟨fun _ => true, 100, 5⟩ (fun _ => none) "x" [1, 2] =
    (0, FS.set (fun _ => none) "x" [1, 0, 0, 0, 2]) := by
  refine Prod.ext rfl ?_
  simp only [writeBinArray]
  congr 1

/-! ### Arrays -/

/-- **C38.** Any file, whatever its length, is read as the whole elements it holds, in order; left-over
bytes are ignored.  (An empty file needs `malloc(0)` to be non-null.) -/
theorem C38_read_any {α : Type} {c : Codec α} (hc : 0 < c.size) (malloc0 : Bool) (fs : FS) (name : String) (data : Bytes)
    (hf : fs name = some data) (h0 : c.size ≤ data.length ∨ malloc0 = true) :
    ∃ b, readBinArray c malloc0 fs name = .ok (some (0, b, data.length / c.size)) ∧ b.len = data.length / c.size ∧
      ∀ i, i < data.length / c.size → b.get i = .ok (c.dec ((data.drop (i * c.size)).take c.size)) := by
  unfold readBinArray getFileSize
  rw [hf]
  simp only [Option.map_some]
  rw [cdiv_ok hc, ok_bind]
  rw [if_neg (by
    rintro ⟨h1, h2⟩
    rcases h0 with h0 | h0
    · have := (Nat.one_le_div_iff hc).2 h0; omega
    · rw [h0] at h2; exact absurd h2 (by simp))]
  rw [freadArr_raw hc (data.length / c.size) (data.length / c.size) 0 ⟨data, 0⟩ (Buf.uninit _)
    (by rw [Nat.mul_comm]; exact Nat.mul_div_le _ _) rfl (by omega), ok_bind]
  refine ⟨_, by rw [if_neg (Nat.lt_irrefl _)], rfl, fun i hi => ?_⟩
  refine Buf.get_ok hi ?_
  simp only [Nat.zero_le, true_and, Nat.zero_add]
  rw [if_pos hi]
  rfl

/-- **C38.** Writing an array and reading it back restores it and its length. -/
theorem C38_array_roundtrip {α : Type} {c : Codec α} {ok : α → Prop} (hc : c.Exact ok) (malloc0 : Bool) (d : Disk) (fs : FS)
    (name : String) (l : List α) (hl : ∀ a ∈ l, ok a) (h0 : l ≠ [] ∨ malloc0 = true)
    (hd : d.Works (packed c l).length name) :
    ∃ fs', writeBinArray c d fs name l = (0, fs') ∧ (∀ n, n ≠ name → fs' n = fs n) ∧
      readBinArray c malloc0 fs' name = .ok (some (0, Buf.ofList l, l.length)) := by
  have h := fwriteArr_take (d := d) hc l [] (by simp)
  have hroom := hd.room
  have hkept := hd.kept
  have hpos := hc.pos
  refine ⟨fs.set name (packed c l), ?_, fun n hn => FS.set_other _ _ hn, ?_⟩
  · unfold writeBinArray
    rw [if_pos hd.opens]
    refine Prod.ext ?_ ?_
    · simp only
      rw [h.2, if_neg]
      simp only [List.length_nil, Nat.sub_zero]
      rw [packed_length hc] at hroom
      have := (Nat.le_div_iff_mul_le hpos).2 hroom
      omega
    · simp only
      rw [h.1, Disk.close, List.take_take, List.nil_append, List.take_of_length_le (by omega)]
  · unfold readBinArray getFileSize
    rw [FS.set_same]
    simp only [Option.map_some]
    rw [packed_length hc, cdiv_ok hpos, Nat.mul_div_cancel _ hpos, ok_bind]
    rw [if_neg (by
      rintro ⟨h1, h2⟩
      rcases h0 with h0 | h0
      · exact h0 (List.eq_nil_of_length_eq_zero h1)
      · rw [h0] at h2; exact absurd h2 (by simp))]
    rw [freadArr_all hc l hl ⟨packed c l, 0⟩ [] (by simp [In.rest]), ok_bind, if_neg (Nat.lt_irrefl _)]

end Gsb
