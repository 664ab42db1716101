import Verif.Props.IoBin2
import Verif.Model.IoBlocked
import Verif.Model.IoMm
/-
C65: files that cannot be opened.
-/
namespace Gsb
variable {T : Type}

/-- **C65**, writers of one file: if the output cannot be opened the result is -1 and no file changes;
if it can, only that file changes, and the result is not -1. -/
theorem C65_writers {ε α : Type} [NZ ε T] (w : Nat) (cv : Codec T) (c : Codec α) (fmt : T → Fixed6) (d : Disk) (fs : FS)
    (name : String) (rows columns br bc nb : Nat) (es : List ε) (bs : List (Element T)) (l : List α)
    (r : Int × FS)
    (hr : r = writeBinCoo w cv d fs name rows columns es ∨ r = writeMmCoo fmt d fs name rows columns es ∨
      r = writeBinBlocked w cv d fs name rows columns br bc nb bs ∨ r = writeBinArray c d fs name l) :
    (d.opens name = false → r = (-1, fs)) ∧
    (d.opens name = true → r.1 ≠ -1 ∧ (∃ data, r.2 name = some data) ∧ ∀ other, other ≠ name → r.2 other = fs other) := by
  have key : ∀ data, (fs.set name data) name = some data ∧ ∀ other, other ≠ name → (fs.set name data) other = fs other :=
    fun data => ⟨FS.set_same fs name data, fun other h => FS.set_other fs data h⟩
  rcases hr with rfl | rfl | rfl | rfl
  · unfold writeBinCoo
    refine ⟨fun h => by rw [if_neg (by simp [h])], fun h => ?_⟩
    rw [if_pos h]
    exact ⟨by simp, ⟨_, (key _).1⟩, (key _).2⟩
  · unfold writeMmCoo
    refine ⟨fun h => by rw [if_neg (by simp [h])], fun h => ?_⟩
    rw [if_pos h]
    exact ⟨by simp, ⟨_, (key _).1⟩, (key _).2⟩
  · unfold writeBinBlocked
    refine ⟨fun h => by rw [if_neg (by simp [h])], fun h => ?_⟩
    rw [if_pos h]
    exact ⟨by simp, ⟨_, (key _).1⟩, (key _).2⟩
  · unfold writeBinArray
    refine ⟨fun h => by rw [if_neg (by simp [h])], fun h => ?_⟩
    rw [if_pos h]
    refine ⟨?_, ⟨_, (key _).1⟩, (key _).2⟩
    simp only
    split <;> decide

/-- **C65**, the three-file writer: if one of its files cannot be opened it returns -1, but the others
are emptied. -/
theorem C65_three_files {ε : Type} [NZ ε T] (w : Nat) (cv : Codec T) (d : Disk) (fs : FS) (frow fcol fval : String) (es : List ε)
    (hn : d.opens frow = false ∨ d.opens fcol = false ∨ d.opens fval = false) :
    (writeBinCoo3 w cv d fs frow fcol fval es).1 = -1 ∧
    (∀ name, name = frow ∨ name = fcol ∨ name = fval →
      (writeBinCoo3 w cv d fs frow fcol fval es).2 name = if d.opens name then some [] else fs name) ∧
    (∀ other, other ≠ frow → other ≠ fcol → other ≠ fval →
      (writeBinCoo3 w cv d fs frow fcol fval es).2 other = fs other) := by
  unfold writeBinCoo3
  simp only
  rw [if_neg (by rintro ⟨h1, h2, h3⟩; simp [h1, h2, h3] at hn)]
  have step : ∀ (fs : FS) (n m : String), (if d.opens n then fs.set n [] else fs) m =
      if m = n ∧ d.opens n = true then some [] else fs m := by
    intro fs n m
    by_cases h : m = n
    · subst h
      by_cases ho : d.opens m = true
      · simp [ho, FS.set_same]
      · simp [ho]
    · by_cases ho : d.opens n = true
      · simp [ho, h, FS.set_other fs [] h]
      · simp [ho]
  refine ⟨rfl, ?_, ?_⟩
  · intro name h
    show (if d.opens fcol then _ else _ : FS) name = _
    rw [step, step, step]
    by_cases ho : d.opens name = true
    · rw [if_pos ho]
      rcases h with rfl | rfl | rfl
      · by_cases h1 : name = fcol ∧ d.opens fcol = true
        · rw [if_pos h1]
        · rw [if_neg h1, if_pos ⟨rfl, ho⟩]
      · rw [if_pos ⟨rfl, ho⟩]
      · by_cases h1 : name = fcol ∧ d.opens fcol = true
        · rw [if_pos h1]
        · rw [if_neg h1]
          by_cases h2 : name = frow ∧ d.opens frow = true
          · rw [if_pos h2]
          · rw [if_neg h2, if_pos ⟨rfl, ho⟩]
    · rw [if_neg ho, if_neg (by rintro ⟨rfl, h⟩; exact ho h), if_neg (by rintro ⟨rfl, h⟩; exact ho h),
        if_neg (by rintro ⟨rfl, h⟩; exact ho h)]
  · intro other h1 h2 h3
    show (if d.opens fcol then _ else _ : FS) other = _
    rw [step, step, step, if_neg (fun h => h2 h.1), if_neg (fun h => h1 h.1), if_neg (fun h => h3 h.1)]

/-- **C65**, readers: on a missing file the COO, CSR and MatrixMarket readers return -1 (the COO ones
with the matrix untouched); the readers of arrays and blocked files, and the three-file readers when the value
file is missing, end the process instead of returning. -/
theorem C65_readers [Add T] [Mul T] [Zero T] {α : Type} (w : Nat) (cv : Codec T) (c : Codec α) (malloc0 : Bool) (conv : Bytes → T) (fuel M : Nat) (fs : FS)
    (name frow fcol : String) (S workers : Nat) (choose : Nat → Nat → Nat → BlockChoice) (balanced : Bool) (offR : List Nat) (blockrows : Nat) (offC : List Nat) (blockcols : Nat) (hf : fs name = none) :
    readBinCoo w cv fs name = .ok (-1, CooA.fresh) ∧
    readMmCoo M conv fuel fs name = .ok (-1, CooA.fresh) ∧
    readBinCsr w cv fs name = .ok (-1, none) ∧
    readBinArray c malloc0 fs name = .ok none ∧
    readBlockedCsbr w cv fs name offR blockrows offC blockcols = .ok none ∧
    readBlockedCsbr2 w cv fs name offR blockrows offC blockcols = .ok none ∧
    readBlockedCgbr w S workers cv choose balanced fs name offR blockrows offC blockcols = .ok none ∧
    readBinCoo3Coo w cv fs frow fcol name = .ok none ∧
    readBinCoo3Gen w cv fs frow fcol name = .ok none := by
  refine ⟨?_, ?_, ?_, ?_, ?_, ?_, ?_, ?_, ?_⟩
  · unfold readBinCoo; rw [hf]
  · unfold readMmCoo; rw [hf]
  · unfold readBinCsr; rw [hf]
  · unfold readBinArray getFileSize; rw [hf]; rfl
  · unfold readBlockedCsbr readBlockedCommon; rw [hf]; rfl
  · unfold readBlockedCsbr2 readBlockedCommon; rw [hf]; rfl
  · unfold readBlockedCgbr readBlockedCommon; rw [hf]; rfl
  · unfold readBinCoo3Coo getFileSize; rw [hf]; rfl
  · unfold readBinCoo3Gen getFileSize; rw [hf]; rfl

/-- **C65**, three-file readers: with the value file present and the row file missing the result is -1. -/
theorem C65_readers_row (w : Nat) (cv : Codec T) (hcv : 0 < cv.size) (fs : FS) (frow fcol fval : String) (v : Bytes)
    (hv : fs fval = some v) (hr : fs frow = none) :
    (∃ A, readBinCoo3Coo w cv fs frow fcol fval = .ok (some ⟨-1, A, []⟩)) ∧
    (∃ A, readBinCoo3Gen w cv fs frow fcol fval = .ok (some ⟨-1, A, []⟩)) := by
  constructor
  · unfold readBinCoo3Coo getFileSize
    rw [hv, hr]
    simp only [Option.map_some]
    rw [cdiv_ok hcv, ok_bind]
    exact ⟨_, rfl⟩
  · unfold readBinCoo3Gen getFileSize
    rw [hv, hr]
    simp only [Option.map_some]
    rw [cdiv_ok hcv, ok_bind]
    exact ⟨_, rfl⟩

theorem maxLoop_some (n : Nat) (b : Buf Nat) (hb : n ≤ b.len) (h : ∀ k, k < n → b.dat k ≠ none) : ∃ m, maxLoop n b = .ok m := by
  unfold maxLoop
  obtain ⟨m, h, -⟩ := forLoop_inv (s := 0) (f := fun i (m : Nat) => (do let a ← b.get i; .ok (if a > m then a else m) : C Nat))
    (fun _ _ => True) (Nat.zero_le n) trivial (by
      intro i m _ hi _
      cases hd : b.dat i with
      | none => exact absurd hd (h i hi)
      | some a => exact ⟨_, by rw [Buf.get_ok (by omega) hd, ok_bind], trivial⟩)
  exact ⟨m, h⟩

theorem maxLoop_none (n : Nat) (b : Buf Nat) (hb : n ≤ b.len) (h : ∃ k, k < n ∧ b.dat k = none) : maxLoop n b = .error .uninit := by
  classical
  have hk := Nat.find_spec h
  have hmin := fun j (hj : j < Nat.find h) => Nat.find_min h hj
  generalize Nat.find h = k at hk hmin
  obtain ⟨m, hm⟩ := maxLoop_some k b (by omega) (fun j hj h0 => hmin j hj ⟨by omega, h0⟩)
  unfold maxLoop at *
  rw [forLoop_split (mid := k) (Nat.zero_le _) (by omega), hm, ok_bind, forLoop_step hk.1]
  unfold Buf.get
  rw [if_pos (by omega), hk.2]
  rfl

/-- **C65**, three-file readers: with the value file and a long enough row file present and the column file missing the result is -1,
the row indices are read, and only the row stream is closed. -/
theorem C65_readers_col (w : Nat) (hw : 0 < w) (cv : Codec T) (hcv : 0 < cv.size) (fs : FS) (frow fcol fval : String) (r v : Bytes)
    (hv : fs fval = some v) (hr : fs frow = some r) (hlen : v.length % 256 ^ w / cv.size * w ≤ r.length) (hc : fs fcol = none) :
    (∃ A, readBinCoo3Coo w cv fs frow fcol fval = .ok (some ⟨-1, A, [.row]⟩) ∧
      ∀ i, i < v.length % 256 ^ w / cv.size → A.row.get i = .ok ((idx w).dec ((r.drop (i * w)).take w))) ∧
    (∃ A, readBinCoo3Gen w cv fs frow fcol fval = .ok (some ⟨-1, A, [.row]⟩)) := by
  constructor
  · unfold readBinCoo3Coo getFileSize
    rw [hv, hr, hc]
    simp only [Option.map_some]
    rw [cdiv_ok hcv, ok_bind]
    generalize v.length % 256 ^ w / cv.size = n at *
    have h := freadArr_raw (c := idx w) hw n n 0 ⟨r, 0⟩ (Buf.uninit n) (by simpa [In.rest, idx] using hlen) rfl (by omega)
    rw [h, ok_bind]
    obtain ⟨m, hm⟩ := maxLoop_some n ⟨n, fun k => if 0 ≤ k ∧ k < 0 + n then
      some ((idx w).dec (((⟨r, 0⟩ : In).rest.drop ((k - 0) * (idx w).size)).take (idx w).size)) else (Buf.uninit n : Buf Nat).dat k⟩ (Nat.le_refl _)
      (by intro k hk; simp only; rw [if_pos (by omega)]; simp)
    simp only
    rw [hm, ok_bind]
    refine ⟨_, rfl, ?_⟩
    intro i hi
    exact Buf.get_ok hi (by simp only; rw [if_pos (by omega)]; simp [In.rest, idx])
  · unfold readBinCoo3Gen getFileSize
    rw [hv, hr, hc]
    simp only [Option.map_some]
    rw [cdiv_ok hcv, ok_bind]
    obtain ⟨s, e, -⟩ := readLoop_count (M := 256 ^ w) (c := idx w) (n := v.length % 256 ^ w / cv.size) hw
      (0, none, ⟨r, 0⟩, Buf.uninit _) (Nat.pow_pos (by omega)) (Nat.le_refl _)
    rw [e, ok_bind]
    exact ⟨_, rfl⟩

/-- **C39**: the `Coo` overload on an index file that holds fewer indices than the value file holds values: where the generic overload
returns 0, this one computes the largest index from memory that was never written. -/
theorem C39_coo_short (w : Nat) (hw : 0 < w) (cv : Codec T) (hcv : 0 < cv.size) (fs : FS) (frow fcol fval : String) (r c v : Bytes)
    (hv : fs fval = some v) (hr : fs frow = some r) (hc : fs fcol = some c)
    (hshort : r.length < v.length % 256 ^ w / cv.size * w ∨ c.length < v.length % 256 ^ w / cv.size * w) :
    readBinCoo3Coo w cv fs frow fcol fval = .error .uninit := by
  have key : ∀ (b : Bytes) (n : Nat), b.length < n * w → ∃ k f a, freadArr (idx w) n 0 ⟨b, 0⟩ (Buf.uninit n) = .ok (k, f, a) ∧
      maxLoop n a = .error .uninit := by
    intro b n hb
    obtain ⟨k, f, a, h1, -, -, h2, h3⟩ := freadArr_any (c := idx w) hw n n 0 ⟨b, 0⟩ (Buf.uninit n) rfl (by omega)
    refine ⟨k, f, a, h1, maxLoop_none n a (by omega) ⟨b.length / w, ?_, h3 _ ?_ rfl⟩⟩
    · rw [Nat.div_lt_iff_lt_mul hw]; exact hb
    · simp [In.rest, idx]
  have key2 : ∀ (b : Bytes) (n : Nat), n * w ≤ b.length → ∃ k f a m, freadArr (idx w) n 0 ⟨b, 0⟩ (Buf.uninit n) = .ok (k, f, a) ∧
      maxLoop n a = .ok m := by
    intro b n hb
    have h := freadArr_raw (c := idx w) hw n n 0 ⟨b, 0⟩ (Buf.uninit n) (by simpa [In.rest, idx] using hb) rfl (by omega)
    obtain ⟨m, hm⟩ := maxLoop_some n ⟨n, fun k => if 0 ≤ k ∧ k < 0 + n then
      some ((idx w).dec (((⟨b, 0⟩ : In).rest.drop ((k - 0) * (idx w).size)).take (idx w).size)) else (Buf.uninit n : Buf Nat).dat k⟩ (Nat.le_refl _)
      (by intro k hk; simp only; rw [if_pos (by omega)]; simp)
    exact ⟨_, _, _, m, h, hm⟩
  unfold readBinCoo3Coo getFileSize
  rw [hv, hr, hc]
  simp only [Option.map_some]
  rw [cdiv_ok hcv, ok_bind]
  generalize v.length % 256 ^ w / cv.size = n at *
  by_cases h : r.length < n * w
  · obtain ⟨k, f, a, h1, h2⟩ := key r n h
    rw [h1, ok_bind]
    simp only
    rw [h2]
    rfl
  · obtain ⟨k, f, a, m, h1, h2⟩ := key2 r n (by omega)
    obtain ⟨k', f', a', h3, h4⟩ := key c n (by omega)
    rw [h1, ok_bind]
    simp only
    rw [h2, ok_bind, h3, ok_bind]
    simp only
    rw [h4]
    rfl

/-- Disks on which some files can be opened and others not exist. -/
example : ∃ d : Disk, d.opens "a.bin" = false ∧ d.opens "b.bin" = true :=
  ⟨⟨fun n => n == "b.bin", 10, 10⟩, by decide, by decide⟩

end Gsb
