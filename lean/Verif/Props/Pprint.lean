import Verif.Model.Pprint
import Verif.Proof.IoBlocked
import Verif.Props.Tools3
/-
C72: what pprint prints.
-/
namespace Gsb
variable {T α : Type} {cv : Codec T} {c : Codec α} {ok : α → Prop}

theorem printLoop_ok (hc : c.Exact ok) (tok : α → Tok T) (l : List α) (hl : ∀ a ∈ l, ok a) (f : In) (v : Option α)
    (out : List (Tok T)) (t : Bytes) (hf : f.rest = packed c l ++ t) :
    printLoop c tok l.length f v out =
      .ok (⟨f.data, f.pos + l.length * c.size⟩, (l.getLast?).or v, out ++ l.map tok) := by
  unfold printLoop
  refine forLoop_closed' (fun i => ((⟨f.data, f.pos + i * c.size⟩ : In), ((l.take i).getLast?).or v, out ++ (l.take i).map tok))
    (Nat.zero_le _) ?_ ?_ ?_
  · simp
  · simp
  · intro i _ hi
    have hsplit : l = l.take i ++ l[i] :: l.drop (i + 1) := by
      rw [List.getElem_cons_drop, List.take_append_drop]
    have hr : (⟨f.data, f.pos + i * c.size⟩ : In).rest = c.enc l[i] ++ (packed c (l.drop (i + 1)) ++ t) := by
      rw [In.rest_forward, hf]
      conv_lhs => rw [hsplit]
      rw [packed_append, packed_cons, List.append_assoc, List.append_assoc,
        List.drop_left' (by rw [packed_length hc, List.length_take]; congr 1; omega)]
    simp only
    rw [fread1_enc hc (hl _ (List.getElem_mem hi)) hr]
    simp only [shown, ok_bind]
    rw [take_succ_eq hi, List.getLast?_append]
    simp only [List.getLast?_singleton, Option.some_or, List.map_append, List.map_cons, List.map_nil, List.append_assoc,
      Nat.add_mul, Nat.one_mul, Nat.add_assoc]

/-- At the end of the file the last value is printed again and again. -/
theorem printLoop_end (hc : 0 < c.size) (tok : α → Tok T) (n : Nat) (f : In) (a : α) (out : List (Tok T)) (hf : f.rest = []) :
    printLoop c tok n f (some a) out = .ok (f, some a, out ++ List.replicate n (tok a)) := by
  unfold printLoop
  refine forLoop_closed' (fun i => (f, some a, out ++ List.replicate i (tok a))) (Nat.zero_le _) (by simp) rfl ?_
  intro i _ hi
  simp only
  rw [fread1_short (by rw [hf]; exact hc)]
  simp only [hf, List.length_nil, if_true, shown, ok_bind, Nat.add_zero]
  rw [List.replicate_succ', List.append_assoc]

theorem printLoop_split (tok : α → Tok T) (m n : Nat) (hmn : m ≤ n) (f : In) (v : Option α) (out : List (Tok T)) :
    printLoop c tok n f v out = printLoop c tok m f v out >>= fun s => printLoop c tok (n - m) s.1 s.2.1 s.2.2 := by
  unfold printLoop
  rw [forLoop_split (mid := m) (Nat.zero_le _) hmn]
  congr 1
  funext s
  unfold forLoop
  have h : ∀ k lo lo' (s : In × Option α × List (Tok T)), loopN (fun _ s => do
      let r := fread1 c s.1 s.2.1
      let a ← shown r.2.1
      .ok (r.2.2, r.2.1, s.2.2 ++ [tok a])) k lo s = loopN (fun _ s => do
      let r := fread1 c s.1 s.2.1
      let a ← shown r.2.1
      .ok (r.2.2, r.2.1, s.2.2 ++ [tok a])) k lo' s := by
    intro k
    induction k with
    | zero => intros; rfl
    | succ k ih =>
      intro lo lo' s
      simp only [loopN]
      congr 1
      funext s'
      exact ih _ _ _
  exact h _ _ _ _

theorem pprint_triples (fs : FS) (name : String) (data : Bytes) (hf : fs name = some data) :
    pprint cv fs [name, "triples"] = pprintTriples cv ⟨data, 0⟩ [] >>= fun out => .ok (0, out) := by
  unfold pprint; simp only [hf]; rfl

theorem pprint_vector (fs : FS) (name : String) (data : Bytes) (hf : fs name = some data) :
    pprint cv fs [name, "vector"] = pprintVector (data.length + 1) ⟨data, 0⟩ [] >>= fun out => .ok (0, out) := by
  unfold pprint; simp only [hf]; rfl

/-- The arguments after the name select the blocked format. -/
theorem pprint_blocks (fs : FS) (name : String) (rest : List String) (h0 : rest ≠ ["triples"]) (h2 : rest ≠ ["vector"]) (data : Bytes)
    (hf : fs name = some data) : pprint cv fs (name :: rest) =
      pprintBlocks cv ⟨data, 0⟩ (if rest = ["blocks"] then [] else [.assuming]) >>= fun out => .ok (0, out) := by
  unfold pprint
  simp only [hf, if_neg h0, if_neg h2]
  by_cases h : rest = ["blocks"]
  · simp only [if_pos h]
  · simp only [if_neg h]

/-- **C72**, "triples": of a file cut after `m` of its `n` values, at least one, everything is printed, and the last value
again for each one missing; the status is 0.  With all values there (`m = n`) exactly the content of the file is printed. -/
theorem triples_ok (hv : cv.Exact (fun _ => True)) (fs : FS) (name : String) (rows columns : Nat) (es : List (Ent T))
    (hr : rows < 2 ^ 32) (hc : columns < 2 ^ 32) (hn : es.length < 2 ^ 32)
    (hin : ∀ e ∈ es, e.row < 2 ^ 32 ∧ e.col < 2 ^ 32) (m : Nat) (hm : m ≤ es.length)
    (pad : List (Tok T)) (hpad : m = es.length ∧ pad = [] ∨ ∃ e, (es.take m).getLast? = some e ∧ pad = List.replicate (es.length - m) (.value e.val))
    (hf : fs name = some (packed (idx 4) [rows, columns, es.length] ++ packed (idx 4) (es.map Ent.row) ++
      packed (idx 4) (es.map Ent.col) ++ packed cv ((es.take m).map Ent.val))) :
    pprint cv fs [name, "triples"] = .ok (0, [.header rows columns es.length] ++ es.map (fun e => .index e.row) ++ [.dashes] ++
      es.map (fun e => .index e.col) ++ [.dashes] ++ (es.take m).map (fun e => .value e.val) ++ pad) := by
  have hi : (idx 4).Exact (· < 2 ^ 32) := idx4_exact
  rw [pprint_triples fs name _ hf]
  unfold pprintTriples
  clear hf
  generalize hD : packed (idx 4) [rows, columns, es.length] ++ packed (idx 4) (es.map Ent.row) ++
      packed (idx 4) (es.map Ent.col) ++ packed cv ((es.take m).map Ent.val) = data
  have hrest : (⟨data, 0⟩ : In).rest = (idx 4).enc rows ++ ((idx 4).enc columns ++ ((idx 4).enc es.length ++ (packed (idx 4) (es.map Ent.row) ++
      (packed (idx 4) (es.map Ent.col) ++ packed cv ((es.take m).map Ent.val))))) := by
    rw [← hD]; simp [In.rest, packed]
  have h1 := fread1_enc (v := none) hi hr hrest
  have hrest2 : (⟨data, 0 + (idx 4).size⟩ : In).rest = (idx 4).enc columns ++ ((idx 4).enc es.length ++ (packed (idx 4) (es.map Ent.row) ++
      (packed (idx 4) (es.map Ent.col) ++ packed cv ((es.take m).map Ent.val)))) := by
    have := In.rest_forward ⟨data, 0⟩ (idx 4).size
    rw [hrest, List.drop_left' (hi.len _)] at this
    exact this
  have h2 := fread1_enc (v := none) hi hc hrest2
  have hrest3 : (⟨data, 0 + (idx 4).size + (idx 4).size⟩ : In).rest = (idx 4).enc es.length ++ (packed (idx 4) (es.map Ent.row) ++
      (packed (idx 4) (es.map Ent.col) ++ packed cv ((es.take m).map Ent.val))) := by
    have := In.rest_forward ⟨data, 0 + (idx 4).size⟩ (idx 4).size
    rw [hrest2, List.drop_left' (hi.len _)] at this
    exact this
  have h3 := fread1_enc (v := none) hi hn hrest3
  have hrest4 : (⟨data, 0 + (idx 4).size + (idx 4).size + (idx 4).size⟩ : In).rest = packed (idx 4) (es.map Ent.row) ++
      (packed (idx 4) (es.map Ent.col) ++ packed cv ((es.take m).map Ent.val)) := by
    have := In.rest_forward ⟨data, 0 + (idx 4).size + (idx 4).size⟩ (idx 4).size
    rw [hrest3, List.drop_left' (hi.len _)] at this
    exact this
  simp only [h1, h2, h3, shown, ok_bind]
  have l1 := printLoop_ok hi (Tok.index (T := T)) (es.map Ent.row) (by
    intro a ha; obtain ⟨e, he, rfl⟩ := List.mem_map.1 ha; exact (hin e he).1) _ none ([] ++ [.header rows columns es.length]) _ hrest4
  rw [List.length_map] at l1
  rw [l1, ok_bind]
  simp only
  have hrest5 : (⟨data, 0 + (idx 4).size + (idx 4).size + (idx 4).size + es.length * (idx 4).size⟩ : In).rest =
      packed (idx 4) (es.map Ent.col) ++ packed cv ((es.take m).map Ent.val) := by
    have := In.rest_forward ⟨data, 0 + (idx 4).size + (idx 4).size + (idx 4).size⟩ (es.length * (idx 4).size)
    rw [hrest4, List.drop_left' (by rw [packed_length hi, List.length_map])] at this
    exact this
  have l2 := printLoop_ok hi (Tok.index (T := T)) (es.map Ent.col) (by
    intro a ha; obtain ⟨e, he, rfl⟩ := List.mem_map.1 ha; exact (hin e he).2) _ ((es.map Ent.row).getLast?.or none)
    ([] ++ [.header rows columns es.length] ++ (es.map Ent.row).map .index ++ [.dashes]) _ hrest5
  rw [List.length_map] at l2
  rw [l2, ok_bind]
  simp only
  have hrest6 : (⟨data, 0 + (idx 4).size + (idx 4).size + (idx 4).size + es.length * (idx 4).size + es.length * (idx 4).size⟩ : In).rest =
      packed cv ((es.take m).map Ent.val) ++ [] := by
    have := In.rest_forward ⟨data, 0 + (idx 4).size + (idx 4).size + (idx 4).size + es.length * (idx 4).size⟩ (es.length * (idx 4).size)
    rw [hrest5, List.drop_left' (by rw [packed_length hi, List.length_map])] at this
    rw [this, List.append_nil]
  have l3 := printLoop_ok hv (Tok.value (T := T)) ((es.take m).map Ent.val) (fun _ _ => trivial) _ none
    ([] ++ [.header rows columns es.length] ++ (es.map Ent.row).map .index ++ [.dashes] ++ (es.map Ent.col).map .index ++ [.dashes]) _ hrest6
  rw [List.length_map, List.length_take, Nat.min_eq_left hm] at l3
  rw [printLoop_split Tok.value m es.length hm, l3, ok_bind]
  simp only
  rcases hpad with ⟨rfl, rfl⟩ | ⟨e, he, rfl⟩
  · rw [Nat.sub_self]
    have : ∀ (f : In) (v : Option T) out, printLoop cv Tok.value 0 f v out = .ok (f, v, out) := fun f v out => by
      unfold printLoop; exact forLoop_empty (Nat.le_refl _)
    rw [this]
    simp [List.map_map, Function.comp_def]
  · have hlast : ((es.take m).map Ent.val).getLast? = some e.val := by rw [List.getLast?_map, he]; rfl
    rw [hlast]
    simp only [Option.some_or]
    rw [printLoop_end hv.pos Tok.value _ _ e.val _ (by
      have := In.rest_forward ⟨data, 0 + (idx 4).size + (idx 4).size + (idx 4).size + es.length * (idx 4).size + es.length * (idx 4).size⟩ (m * cv.size)
      rw [hrest6, List.append_nil, List.drop_of_length_le (by rw [packed_length hv, List.length_map, List.length_take, Nat.min_eq_left hm])] at this
      exact this)]
    simp [List.map_map, Function.comp_def]

/-- **C72**, "triples": exactly the content of a binary matrix file is printed. -/
theorem C72_triples (hv : cv.Exact (fun _ => True)) (fs : FS) (name : String) (rows columns : Nat) (es : List (Ent T))
    (hr : rows < 2 ^ 32) (hc : columns < 2 ^ 32) (hn : es.length < 2 ^ 32)
    (hin : ∀ e ∈ es, e.row < 2 ^ 32 ∧ e.col < 2 ^ 32) (hf : fs name = some (binFile 4 cv rows columns es)) :
    pprint cv fs [name, "triples"] = .ok (0, [.header rows columns es.length] ++ es.map (fun e => .index e.row) ++ [.dashes] ++
      es.map (fun e => .index e.col) ++ [.dashes] ++ es.map (fun e => .value e.val)) := by
  have := triples_ok hv fs name rows columns es hr hc hn hin es.length (Nat.le_refl _) [] (.inl ⟨rfl, rfl⟩)
    (by rw [List.take_length]; exact hf)
  rwa [List.take_length, List.append_nil] at this

/-- **C72**, "triples", a file cut after `m` of its values, at least one: the status is 0, and for every missing value the last
one there is printed again. -/
theorem C72_triples_cut (hv : cv.Exact (fun _ => True)) (fs : FS) (name : String) (rows columns : Nat) (es : List (Ent T))
    (hr : rows < 2 ^ 32) (hc : columns < 2 ^ 32) (hn : es.length < 2 ^ 32)
    (hin : ∀ e ∈ es, e.row < 2 ^ 32 ∧ e.col < 2 ^ 32) (m : Nat) (hm : m < es.length)
    (hf : fs name = some ((binFile 4 cv rows columns es).take (3 * 4 + 2 * (es.length * 4) + (m + 1) * cv.size))) :
    pprint cv fs [name, "triples"] = .ok (0, [.header rows columns es.length] ++ es.map (fun e => .index e.row) ++ [.dashes] ++
      es.map (fun e => .index e.col) ++ [.dashes] ++ (es.take (m + 1)).map (fun e => .value e.val) ++
      List.replicate (es.length - (m + 1)) (.value es[m].val)) := by
  have hi : (idx 4).Exact (· < 2 ^ 32) := idx4_exact
  refine triples_ok hv fs name rows columns es hr hc hn hin (m + 1) hm _ (.inr ⟨es[m], getLast?_take hm, rfl⟩) ?_
  rw [hf]
  unfold binFile
  have hl : (packed (idx 4) [rows, columns, es.length] ++ packed (idx 4) (es.map Ent.row) ++ packed (idx 4) (es.map Ent.col)).length =
      3 * 4 + 2 * (es.length * 4) := by
    simp only [List.length_append, packed_length hi, List.length_map]
    show 3 * 4 + es.length * 4 + es.length * 4 = _
    omega
  rw [List.take_append, hl, List.take_of_length_le (by rw [hl]; omega), Nat.add_sub_cancel_left]
  have hs : es.map Ent.val = (es.take (m + 1)).map Ent.val ++ (es.drop (m + 1)).map Ent.val := by
    rw [← List.map_append, List.take_append_drop]
  rw [hs, packed_append, List.take_left' (by rw [packed_length hv, List.length_map, List.length_take, Nat.min_eq_left hm])]

/-! ### Blocks -/

theorem pprintRecord_ok (hv : cv.Exact (fun _ => True)) (s : PrintRec T) (r : Nat × Ent T)
    (hr : r.1 < 2 ^ 32 ∧ r.2.row < 2 ^ 32 ∧ r.2.col < 2 ^ 32) (t : Bytes) (hf : s.f.rest = blockRecord 4 cv r ++ t) :
    pprintRecord cv s = .ok ⟨⟨s.f.data, s.f.pos + (3 * 4 + cv.size)⟩, some r.2.col, some r.2.val,
      s.out ++ [.record r.1 r.2.row r.2.col r.2.val]⟩ := by
  have hi : (idx 4).Exact (· < 2 ^ 32) := idx4_exact
  have e0 : s.f.rest = (idx 4).enc r.1 ++ ((idx 4).enc r.2.row ++ ((idx 4).enc r.2.col ++ (cv.enc r.2.val ++ t))) := by
    rw [hf]; simp [blockRecord, idx]
  have h1 := fread1_enc (v := s.n) hi hr.1 e0
  have e1 : (⟨s.f.data, s.f.pos + (idx 4).size⟩ : In).rest = (idx 4).enc r.2.row ++ ((idx 4).enc r.2.col ++ (cv.enc r.2.val ++ t)) := by
    rw [In.rest_forward, e0, List.drop_left' (hi.len _)]
  have h2 := fread1_enc (v := some r.1) hi hr.2.1 e1
  have e2 : (⟨s.f.data, s.f.pos + (idx 4).size + (idx 4).size⟩ : In).rest = (idx 4).enc r.2.col ++ (cv.enc r.2.val ++ t) := by
    rw [In.rest_forward ⟨s.f.data, s.f.pos + (idx 4).size⟩, e1, List.drop_left' (hi.len _)]
  have h3 := fread1_enc (v := some r.2.row) hi hr.2.2 e2
  have e3 : (⟨s.f.data, s.f.pos + (idx 4).size + (idx 4).size + (idx 4).size⟩ : In).rest = cv.enc r.2.val ++ t := by
    rw [In.rest_forward ⟨s.f.data, s.f.pos + (idx 4).size + (idx 4).size⟩, e2, List.drop_left' (hi.len _)]
  have h4 := fread1_enc (v := s.v) hv trivial e3
  unfold pprintRecord
  simp only [h1, h2, h3, h4, shown, ok_bind]
  congr 3
  show s.f.pos + 4 + 4 + 4 + cv.size = _
  omega

/-- At the end of the file: the last column three times and the last value. -/
theorem pprintRecord_end (hv : cv.Exact (fun _ => True)) (f : In) (n : Nat) (v : T) (out : List (Tok T)) (hf : f.rest = []) :
    pprintRecord cv ⟨f, some n, some v, out⟩ = .ok ⟨f, some n, some v, out ++ [.record n n n v]⟩ := by
  have h1 := fread1_short (c := idx 4) (f := f) (v := some n) (by rw [hf]; decide)
  have h2 := fread1_short (c := cv) (f := f) (v := some v) (by rw [hf]; exact hv.pos)
  simp only [hf, List.length_nil, if_true, Nat.add_zero] at h1 h2
  unfold pprintRecord
  simp only [h1, h2, shown, ok_bind]

theorem blocks_ok (hv : cv.Exact (fun _ => True)) (fs : FS) (name : String) (rest : List String) (h0 : rest ≠ ["triples"])
    (h2 : rest ≠ ["vector"]) (rows columns br bc nb : Nat) (l : List (Nat × Ent T))
    (hr : rows < 2 ^ 32) (hc : columns < 2 ^ 32) (hn : l.length < 2 ^ 32) (hbr : br < 2 ^ 32) (hbc : bc < 2 ^ 32) (hnb : nb < 2 ^ 32)
    (hin : ∀ r ∈ l, r.1 < 2 ^ 32 ∧ r.2.row < 2 ^ 32 ∧ r.2.col < 2 ^ 32) (m : Nat) (hm : m ≤ l.length)
    (pad : List (Tok T)) (hpad : m = l.length ∧ pad = [] ∨
      ∃ r, (l.take m).getLast? = some r ∧ pad = List.replicate (l.length - m) (.record r.2.col r.2.col r.2.col r.2.val))
    (hf : fs name = some (packed (idx 4) [rows, columns, l.length, br, bc, nb] ++ (l.take m).flatMap (blockRecord 4 cv))) :
    pprint cv fs (name :: rest) = .ok (0, (if rest = ["blocks"] then [] else [.assuming]) ++
      (l.take m).map (fun r => .record r.1 r.2.row r.2.col r.2.val) ++ pad) := by
  have hi : (idx 4).Exact (· < 2 ^ 32) := idx4_exact
  rw [pprint_blocks fs name rest h0 h2 _ hf]
  generalize (if rest = ["blocks"] then ([] : List (Tok T)) else [.assuming]) = out
  clear hf h0 h2
  generalize hB : (l.take m).flatMap (blockRecord 4 cv) = B
  generalize hD : packed (idx 4) [rows, columns, l.length, br, bc, nb] ++ B = data
  have e0 : (⟨data, 0⟩ : In).rest = (idx 4).enc rows ++ ((idx 4).enc columns ++ ((idx 4).enc l.length ++ ((idx 4).enc br ++
      ((idx 4).enc bc ++ ((idx 4).enc nb ++ B))))) := by
    rw [← hD]; simp [In.rest, packed]
  have fwd : ∀ (p : Nat) (a : Nat) (t : Bytes), (⟨data, p⟩ : In).rest = (idx 4).enc a ++ t → (⟨data, p + (idx 4).size⟩ : In).rest = t := by
    intro p a t h
    have := In.rest_forward ⟨data, p⟩ (idx 4).size
    rw [h, List.drop_left' (hi.len _)] at this
    exact this
  have e1 := fwd _ _ _ e0
  have e2 := fwd _ _ _ e1
  have e3 := fwd _ _ _ e2
  have e4 := fwd _ _ _ e3
  have e5 := fwd _ _ _ e4
  have e6 := fwd _ _ _ e5
  unfold pprintBlocks
  have h1 := fread1_enc (v := none) hi hr e0
  have h2 := fread1_enc (v := none) hi hc e1
  have h3 := fread1_enc (v := none) hi hn e2
  have h4 := fread1_enc (v := none) hi hbr e3
  have h5 := fread1_enc (v := some br) hi hbc e4
  have h6 := fread1_enc (v := some bc) hi hnb e5
  simp only [h1, h2, h3, h4, h5, h6, shown, ok_bind]
  generalize 0 + (idx 4).size + (idx 4).size + (idx 4).size + (idx 4).size + (idx 4).size + (idx 4).size = p at e6 ⊢
  have hsz : ∀ k, k ≤ m → ((l.take k).flatMap (blockRecord 4 cv)).length = k * (3 * 4 + cv.size) := by
    intro k hk
    have : ∀ l : List (Nat × Ent T), (l.flatMap (blockRecord 4 cv)).length = l.length * (3 * 4 + cv.size) := by
      intro l
      induction l with
      | nil => simp
      | cons a l ih =>
        rw [List.flatMap_cons, List.length_append, ih, List.length_cons, Nat.add_mul, Nat.one_mul]
        simp only [blockRecord, List.length_append, leBytes_length, hv.len]
        omega
    rw [this, List.length_take, Nat.min_eq_left (by omega)]
  have hat : ∀ k, k ≤ m → (⟨data, p + k * (3 * 4 + cv.size)⟩ : In).rest = ((l.take m).drop k).flatMap (blockRecord 4 cv) := by
    intro k hk
    have h := In.rest_forward ⟨data, p⟩ (k * (3 * 4 + cv.size))
    rw [e6, ← hB] at h
    rw [h]
    conv_lhs => rw [← List.take_append_drop k (l.take m), List.flatMap_append, List.take_take, Nat.min_eq_left hk]
    rw [List.drop_left' (hsz k hk)]
  have first : forLoop 0 m (⟨⟨data, p⟩, some nb, none, out⟩ : PrintRec T) (fun _ s => pprintRecord cv s) =
      .ok ⟨⟨data, p + m * (3 * 4 + cv.size)⟩, ((l.take m).getLast?.map (fun r => r.2.col)).or (some nb),
        (l.take m).getLast?.map (fun r => r.2.val), out ++ (l.take m).map (fun r => .record r.1 r.2.row r.2.col r.2.val)⟩ := by
    refine forLoop_closed' (fun k => ⟨⟨data, p + k * (3 * 4 + cv.size)⟩, ((l.take k).getLast?.map (fun r => r.2.col)).or (some nb),
        (l.take k).getLast?.map (fun r => r.2.val), out ++ (l.take k).map (fun r => .record r.1 r.2.row r.2.col r.2.val)⟩)
      (Nat.zero_le _) (by simp) rfl ?_
    intro k _ hk
    have hkl : k < l.length := by omega
    have hr := hat k (by omega)
    have hd : (l.take m).drop k = l[k] :: (l.take m).drop (k + 1) := by
      rw [List.drop_eq_getElem_cons (by rw [List.length_take]; omega), List.getElem_take]
    rw [hd, List.flatMap_cons] at hr
    rw [pprintRecord_ok hv _ l[k] (hin _ (List.getElem_mem hkl)) _ hr, getLast?_take hkl, take_succ_eq hkl]
    simp only [Option.map_some, Option.some_or, List.map_append, List.map_cons, List.map_nil, List.append_assoc, Nat.add_mul,
      Nat.one_mul, Nat.add_assoc]
  rw [forLoop_split (mid := m) (Nat.zero_le _) hm, first, ok_bind]
  rcases hpad with ⟨rfl, rfl⟩ | ⟨r, hr, rfl⟩
  · rw [forLoop_empty (Nat.le_refl _), ok_bind, List.append_nil]
    rfl
  · have hend : (⟨data, p + m * (3 * 4 + cv.size)⟩ : In).rest = [] := by
      rw [hat m (Nat.le_refl _), List.drop_of_length_le (by rw [List.length_take]; omega)]; rfl
    rw [hr]
    simp only [Option.map_some, Option.some_or]
    rw [forLoop_closed' (fun k => (⟨⟨data, p + m * (3 * 4 + cv.size)⟩, some r.2.col, some r.2.val,
        out ++ (l.take m).map (fun r => .record r.1 r.2.row r.2.col r.2.val) ++
          List.replicate (k - m) (.record r.2.col r.2.col r.2.col r.2.val)⟩ : PrintRec T)) hm (by simp) rfl ?_]
    · rfl
    · intro k hk _
      rw [pprintRecord_end hv _ _ _ _ hend, Nat.succ_sub hk, List.replicate_succ', List.append_assoc]

/-- **C72**, "blocks": every record of a blocked file is printed, in order; so it is for any other second argument than
`triples` and `vector`, for none and for more than one, with a notice first. -/
theorem C72_blocks (hv : cv.Exact (fun _ => True)) (fs : FS) (name : String) (rest : List String) (h0 : rest ≠ ["triples"])
    (h2 : rest ≠ ["vector"]) (rows columns br bc nb : Nat) (l : List (Nat × Ent T))
    (hr : rows < 2 ^ 32) (hc : columns < 2 ^ 32) (hn : l.length < 2 ^ 32) (hbr : br < 2 ^ 32) (hbc : bc < 2 ^ 32) (hnb : nb < 2 ^ 32)
    (hin : ∀ r ∈ l, r.1 < 2 ^ 32 ∧ r.2.row < 2 ^ 32 ∧ r.2.col < 2 ^ 32)
    (hf : fs name = some (blockFile 4 cv rows columns br bc nb l)) :
    pprint cv fs (name :: rest) = .ok (0, (if rest = ["blocks"] then [] else [.assuming]) ++
      l.map (fun r => .record r.1 r.2.row r.2.col r.2.val)) := by
  have := blocks_ok hv fs name rest h0 h2 rows columns br bc nb l hr hc hn hbr hbc hnb hin l.length (Nat.le_refl _) [] (.inl ⟨rfl, rfl⟩)
    (by rw [List.take_length]; exact hf)
  rwa [List.take_length, List.append_nil] at this

/-- **C72**, "blocks", a file cut after `m + 1` of its records: the status is 0, and a record that never was — block, row and column
all the last column, with the last value — is printed for every one missing. -/
theorem C72_blocks_cut (hv : cv.Exact (fun _ => True)) (fs : FS) (name : String) (rest : List String) (h0 : rest ≠ ["triples"])
    (h2 : rest ≠ ["vector"]) (rows columns br bc nb : Nat) (l : List (Nat × Ent T))
    (hr : rows < 2 ^ 32) (hc : columns < 2 ^ 32) (hn : l.length < 2 ^ 32) (hbr : br < 2 ^ 32) (hbc : bc < 2 ^ 32) (hnb : nb < 2 ^ 32)
    (hin : ∀ r ∈ l, r.1 < 2 ^ 32 ∧ r.2.row < 2 ^ 32 ∧ r.2.col < 2 ^ 32) (m : Nat) (hm : m < l.length)
    (hf : fs name = some ((blockFile 4 cv rows columns br bc nb l).take (6 * 4 + (m + 1) * (3 * 4 + cv.size)))) :
    pprint cv fs (name :: rest) = .ok (0, (if rest = ["blocks"] then [] else [.assuming]) ++
      (l.take (m + 1)).map (fun r => .record r.1 r.2.row r.2.col r.2.val) ++
      List.replicate (l.length - (m + 1)) (.record l[m].2.col l[m].2.col l[m].2.col l[m].2.val)) := by
  have hi : (idx 4).Exact (· < 2 ^ 32) := idx4_exact
  refine blocks_ok hv fs name rest h0 h2 rows columns br bc nb l hr hc hn hbr hbc hnb hin (m + 1) hm _ (.inr ⟨l[m], getLast?_take hm, rfl⟩) ?_
  rw [hf]
  unfold blockFile
  have hl : (packed (idx 4) [rows, columns, l.length, br, bc, nb]).length = 6 * 4 := by rw [packed_length hi]; rfl
  rw [List.take_append, hl, List.take_of_length_le (by rw [hl]; omega), Nat.add_sub_cancel_left]
  conv_lhs => rw [← List.take_append_drop (m + 1) l, List.flatMap_append]
  rw [List.take_append_drop, List.take_left']
  have : ∀ l : List (Nat × Ent T), (l.flatMap (blockRecord 4 cv)).length = l.length * (3 * 4 + cv.size) := by
    intro l
    induction l with
    | nil => simp
    | cons a l ih =>
      rw [List.flatMap_cons, List.length_append, ih, List.length_cons, Nat.add_mul, Nat.one_mul]
      simp only [blockRecord, List.length_append, leBytes_length, hv.len]
      omega
  rw [this, List.length_take, Nat.min_eq_left hm]

/-! ### Vectors -/

theorem pprintVector_ok (data : Bytes) (k n p : Nat) (out : List (Tok T)) (hp : p = n * 4)
    (hn : n ≤ data.length / 4) (hk : data.length / 4 - n < k) :
    pprintVector k ⟨data, p⟩ out = .ok (out ++ ((items (idx 4) data).drop n).map .index) := by
  have hs : (idx 4).size = 4 := rfl
  induction k generalizing n p out with
  | zero => omega
  | succ k ih =>
    rw [pprintVector]
    by_cases h : n = data.length / 4
    · have hshort : (⟨data, p⟩ : In).rest.length < (idx 4).size := by
        show (data.drop p).length < 4
        rw [List.length_drop]
        omega
      rw [fread1_short hshort]
      simp only [gt_iff_lt, Nat.lt_irrefl, if_false]
      rw [List.drop_of_length_le (by rw [items_length, hs]; omega), List.map_nil, List.append_nil]
    · have hle : n * 4 + 4 ≤ data.length := by omega
      have hread : fread1 (idx 4) ⟨data, p⟩ none = (1, some ((idx 4).dec ((data.drop (n * 4)).take 4)), ⟨data, p + 4⟩) := by
        unfold fread1
        have hr : (⟨data, p⟩ : In).rest = data.drop (n * 4) := by rw [hp]; rfl
        rw [hr, if_pos (by rw [List.length_drop, hs]; omega)]
        rfl
      rw [hread]
      simp only [gt_iff_lt, Nat.lt_one_iff, Nat.zero_lt_one, if_true, shown, ok_bind]
      rw [ih (n + 1) (p + 4) _ (by omega) (by omega) (by omega)]
      have hi : n < (items (idx 4) data).length := by rw [items_length, hs]; omega
      rw [List.drop_eq_getElem_cons hi, List.map_cons, List.append_assoc]
      simp [items, hs]

/-- **C72**, "vector": whatever the file holds, its indices are printed; up to three bytes at the end are ignored. -/
theorem C72_vector (fs : FS) (name : String) (data : Bytes) (hf : fs name = some data) :
    pprint cv fs [name, "vector"] = .ok (0, (items (idx 4) data).map .index) := by
  rw [pprint_vector fs name data hf, pprintVector_ok data _ 0 0 [] rfl (Nat.zero_le _) (by
    have := Nat.div_le_self data.length 4
    omega)]
  rfl

/-- **C72**, without a file to read: undefined behaviour in every mode (the program goes on with a null stream); without arguments
status 1. -/
theorem C72_missing (fs : FS) (name : String) (rest : List String) (hf : fs name = none) :
    pprint cv fs (name :: rest) = .error .ub ∧ pprint cv fs [] = .ok (1, []) := by
  refine ⟨?_, rfl⟩
  unfold pprint
  simp only [hf]

/-- Hypotheses met and the conclusion on files: two entries, the second value missing; one record of two; five bytes. -/
example : pprint byteCodec (FS.set (fun _ => none) "a" ((binFile 4 byteCodec 2 3 [⟨0, 2, 7⟩, ⟨1, 1, 5⟩]).take 29)) ["a", "triples"] =
      .ok (0, [.header 2 3 2, .index 0, .index 1, .dashes, .index 2, .index 1, .dashes, .value 7, .value 7]) ∧
    pprint byteCodec (FS.set (fun _ => none) "a" ((blockFile 4 byteCodec 2 3 1 1 1 [(0, ⟨0, 2, 7⟩), (0, ⟨1, 1, 5⟩)]).take 37)) ["a"] =
      .ok (0, [.assuming, .record 0 0 2 7, .record 2 2 2 7]) ∧
    pprint byteCodec (FS.set (fun _ => none) "a" [3, 1, 0, 0, 9]) ["a", "vector"] = .ok (0, [.index 259]) := by
  refine ⟨?_, ?_, ?_⟩
  · exact C72_triples_cut ⟨by decide, fun _ => rfl, fun _ _ => rfl⟩ _ "a" 2 3 [⟨0, 2, 7⟩, ⟨1, 1, 5⟩] (by decide) (by decide) (by decide)
      (by simp) 0 (by decide) (FS.set_same _ _ _)
  · exact C72_blocks_cut ⟨by decide, fun _ => rfl, fun _ _ => rfl⟩ _ "a" [] (by decide) (by decide) 2 3 1 1 1 [(0, ⟨0, 2, 7⟩), (0, ⟨1, 1, 5⟩)]
      (by decide) (by decide) (by decide) (by decide) (by decide) (by decide) (by simp) 0 (by decide) (FS.set_same _ _ _)
  · exact C72_vector _ "a" _ (FS.set_same _ _ _)

end Gsb
