import Verif.Model.Tools
import Verif.Spec.Tools
import Verif.Props.IoBin2
import Verif.Proof.Coo
/-
The tools one step at a time.
-/
namespace Gsb
variable {T : Type}

theorem idx4_exact : (idx 4).Exact (· < 2 ^ 32) := idx_exact (w := 4) (by decide)

theorem outName_ok {cap limit : Nat} {name suffix : String} (h : name.utf8ByteSize < limit)
    (h2 : limit + suffix.utf8ByteSize ≤ cap) : outName cap limit name suffix = .ok (name ++ suffix) := by
  unfold outName
  rw [if_pos ⟨h, by omega⟩]

/-- `fread` of the first `n` objects of a file. -/
theorem freadArr_items {α : Type} {c : Codec α} (hc : 0 < c.size) (data : Bytes) (n : Nat) (hn : n ≤ data.length / c.size) :
    freadArr c n 0 ⟨data, 0⟩ (Buf.uninit n) =
      .ok (n, ⟨data, n * c.size⟩, Buf.ofList ((items c data).take n)) := by
  have hle : n * c.size ≤ data.length := Nat.le_trans (Nat.mul_le_mul_right _ hn) (Nat.div_mul_le_self _ _)
  rw [freadArr_raw hc n n 0 ⟨data, 0⟩ (Buf.uninit n) (by simpa [In.rest] using hle) rfl (by omega)]
  refine congrArg Except.ok (Prod.ext rfl (Prod.ext (by simp) (Buf.ext' ?_ ?_)))
  · simp [items_length, Nat.min_eq_left hn]
  · intro k
    simp only [Nat.zero_le, true_and, Nat.zero_add, Nat.sub_zero, In.rest, List.drop_zero, Buf.ofList_dat]
    by_cases hk : k < n
    · rw [if_pos hk, List.getElem?_take_of_lt hk]
      simp [items, show k < data.length / c.size by omega]
    · rw [if_neg hk, List.getElem?_eq_none (by simp; omega)]
      rfl

theorem decrementAll_spec (l : List Nat) (hl : ∀ v ∈ l, v < 2 ^ 32) :
    decrementAll l.length (Buf.ofList l) =
      .ok (if 0 ∈ l then none else some (Buf.ofList (l.map (· - 1)))) := by
  unfold decrementAll
  refine forLoop_closed' (fun i => if 0 ∈ l.take i then none else
    some (Buf.ofList ((l.take i).map (· - 1) ++ l.drop i))) (Nat.zero_le _) (by simp) (by simp) ?_
  intro i _ hi
  have htake : l.take (i + 1) = l.take i ++ [l[i]] := by rw [List.take_append_getElem]
  by_cases h0 : 0 ∈ l.take i
  · rw [if_pos h0, if_pos (by rw [htake]; exact List.mem_append_left _ h0)]
  · simp only [if_neg h0, htake, List.mem_append, List.mem_singleton, false_or, List.map_append, List.map_cons, List.map_nil]
    have hget : (Buf.ofList ((l.take i).map (· - 1) ++ l.drop i)).get i = .ok l[i] := by
      refine Buf.get_ok ?_ ?_
      · simp; omega
      · have hmin : min i l.length = i := by omega
        rw [Buf.ofList_dat, List.getElem?_append_right (by simp [hmin])]
        simp [hmin, hi]
    rw [hget, ok_bind]
    by_cases hz : l[i] = 0
    · rw [if_pos hz, if_pos (.inr hz.symm)]
    · rw [if_neg hz, if_neg (by rintro (h | h); exact h0 h; exact hz h.symm), Buf.put_ok (by simp; omega), ok_bind]
      have hlt := hl _ (List.getElem_mem hi)
      have hs : subM (2 ^ 32) l[i] 1 = l[i] - 1 := by rw [subM_eq hlt (by omega)]
      rw [hs]
      refine congrArg (fun b => Except.ok (some b)) (Buf.ext' ?_ ?_)
      · simp; omega
      · intro k
        simp only [Buf.ofList_dat]
        have hmin : min i l.length = i := by omega
        by_cases hk : k = i
        · subst hk
          rw [if_pos rfl, List.append_assoc, List.getElem?_append_right (by simp [hmin])]
          simp [hmin]
        · rw [if_neg hk]
          by_cases h : k < i
          · rw [List.getElem?_append_left (by simp [hmin, h]), List.append_assoc, List.getElem?_append_left (by simp [hmin, h])]
          · rw [List.getElem?_append_right (by simp [hmin]; omega), List.getElem?_append_right (by simp [hmin]; omega)]
            have e : k - (min i l.length) = (k - (i + 1)) + 1 := by omega
            simp only [List.length_map, List.length_append, List.length_take, List.length_cons, List.length_nil, hmin, List.getElem?_drop]
            have e : i + (k - i) = i + 1 + (k - (i + 1)) := by omega
            rw [e]

theorem ofLe_lt (b : Bytes) : ofLe b < 256 ^ b.length := by
  induction b with
  | nil => simp [ofLe]
  | cons x t ih =>
    have := x.toNat_lt
    simp only [ofLe, List.length_cons, Nat.pow_succ]
    omega

theorem items_idx_lt {w : Nat} {data : Bytes} (v : Nat) (h : v ∈ items (idx w) data) : v < 256 ^ w := by
  obtain ⟨i, -, rfl⟩ := List.mem_map.1 h
  refine Nat.lt_of_lt_of_le (ofLe_lt _) (Nat.pow_le_pow_right (by omega) ?_)
  rw [List.length_take]
  exact Nat.min_le_left _ _

/-- One file, whatever it holds. -/
theorem one2zeroFile_spec (d : Disk) (fs : FS) (name : String) (hname : name.utf8ByteSize < 121) (data : Bytes)
    (hf : fs name = some data) :
    one2zeroFile d fs name =
      let ws := (items (idx 4) data).take ((items (idx 4) data).length % 2 ^ 32)
      if 0 ∈ ws then .ok (some 1, fs)
      else if d.opens (name ++ ".zero") then
        .ok (none, fs.set (name ++ ".zero") ((packed (idx 4) (ws.map (· - 1))).take (min d.kept d.room)))
      else .ok (some 1, fs) := by
  unfold one2zeroFile
  rw [outName_ok hname (by decide), ok_bind, hf]
  simp only
  have hn : data.length / 4 % 2 ^ 32 ≤ data.length / (idx 4).size := Nat.mod_le _ _
  rw [freadArr_items (c := idx 4) (by decide) data _ hn, ok_bind]
  simp only [items_length]
  have hlen : ((items (idx 4) data).take (data.length / 4 % 2 ^ 32)).length = data.length / 4 % 2 ^ 32 := by
    rw [List.length_take, items_length, Nat.min_eq_left hn]
  have hd := decrementAll_spec ((items (idx 4) data).take (data.length / 4 % 2 ^ 32))
    (fun v h => items_idx_lt v (List.mem_of_mem_take h))
  rw [hlen] at hd
  rw [hd, ok_bind]
  show _ = if 0 ∈ (items (idx 4) data).take (data.length / 4 % 2 ^ 32) then _ else
    if d.opens (name ++ ".zero") = true then Except.ok (none, fs.set (name ++ ".zero")
      ((packed (idx 4) (((items (idx 4) data).take (data.length / 4 % 2 ^ 32)).map (· - 1))).take (min d.kept d.room))) else _
  by_cases h0 : 0 ∈ (items (idx 4) data).take (data.length / 4 % 2 ^ 32)
  · rw [if_pos h0, if_pos h0]
  · rw [if_neg h0, if_neg h0]
    simp only
    have ht := toList_ofList (((items (idx 4) data).take (data.length / 4 % 2 ^ 32)).map (· - 1))
      (Buf.ofList (((items (idx 4) data).take (data.length / 4 % 2 ^ 32)).map (· - 1))) rfl (fun _ => rfl)
    rw [List.length_map, hlen] at ht
    rw [ht, ok_bind]
    by_cases ho : d.opens (name ++ ".zero") = true
    · rw [if_pos ho, if_pos ho]
      rw [(fwriteArr_take idx4_exact _ [] (by simp)).1, Disk.close, List.take_take, List.nil_append]
    · rw [if_neg ho, if_neg ho]

theorem one2zeroFile_missing (d : Disk) (fs : FS) (name : String) (hname : name.utf8ByteSize < 121)
    (hf : fs name = none) : one2zeroFile d fs name = .ok (some 1, fs) := by
  unfold one2zeroFile
  rw [outName_ok hname (by decide), ok_bind, hf]

end Gsb
