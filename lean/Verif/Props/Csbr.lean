import Verif.Proof.Csbr3
/-
C08, C09, C10 (blocked CSR formats), C20–C23 (block helpers), C54 (block ids).
-/
namespace Gsb
variable {T : Type}

/-- **C08.** For every block partition and every non-empty matrix, construction succeeds and `spmv`
adds each row's products in column order, exactly (no law of `+`, `*` used). -/
theorem C08_csbr_spmv [Add T] [Mul T] [Zero T] (M workers rows columns : Nat) (es : List (Element T))
    (offR : List Nat) (blockrows : Nat) (offC : List Nat) (blockcols : Nat)
    (PR : Partition offR blockrows rows) (PC : Partition offC blockcols columns)
    (hw : 0 < workers) (hne : es ≠ []) (hlen : es.length < M) (hgrid : blockrows * blockcols < M)
    (hrows : rows + 1 < M) (hcols : columns < M) (hbr : blockrows ≤ rows) (hbc : blockcols ≤ columns)
    (hin : InRange (ents es) rows columns)
    (nx ny : Nat) (hnx : columns ≤ nx) (hny : rows ≤ ny) (x y : Nat → T) :
    ∃ A es', cooToCsbr M workers es rows columns offR blockrows offC blockcols = .ok (A, es') ∧
      A.spmv M (Buf.full nx x) (Buf.full ny y) = .ok (Buf.full ny (spmvExact (ents es) x y)) := by
  obtain ⟨P, hP⟩ := csbr_main (workers := workers) hw PR PC hne hlen hgrid hrows hcols hbr hbc hin
  refine ⟨_, _, hP, ?_⟩
  have H := prepared_blkIn (M := M) PR PC hne hlen hgrid hrows hcols hbr (by omega) hin
  rw [csbr_spmv H (fun i hi => PR.rd_ok i hi) (fun i hi => PC.rd_ok i hi)
    (fun i hi => PR.mono (Nat.le_succ i) hi) PR.at_last nx ny (fun e he => by
      have := (hin _ (mem_prepared he).2).2; simp only at this; omega) hny x y P, prepared_exact]

/-- C08 for constant block sizes: any sizes at least 1, also larger than the matrix. -/
theorem C08_csbr_const [Add T] [Mul T] [Zero T] (M workers rows columns brSize bcSize : Nat) (es : List (Element T))
    (hbs1 : 0 < brSize) (hbs2 : 0 < bcSize)
    (hw : 0 < workers) (hne : es ≠ []) (hlen : es.length < M)
    (hgrid : max 1 (rows / brSize) * max 1 (columns / bcSize) < M)
    (hrows : rows + 1 < M) (hcols : columns + 1 < M)
    (hin : InRange (ents es) rows columns)
    (nx ny : Nat) (hnx : columns ≤ nx) (hny : rows ≤ ny) (x y : Nat → T) :
    ∃ A es', cooToCsbrConst M workers es rows columns brSize bcSize = .ok (A, es') ∧
      A.spmv M (Buf.full nx x) (Buf.full ny y) = .ok (Buf.full ny (spmvExact (ents es) x y)) := by
  obtain ⟨e0, he0⟩ := List.exists_mem_of_ne_nil es hne
  have h0 := hin _ (List.mem_map_of_mem (f := NZ.toEnt) he0)
  have hb1 : constBlocks rows brSize = max 1 (rows / brSize) := by
    unfold constBlocks; generalize rows / brSize = q; split <;> omega
  have hb2 : constBlocks columns bcSize = max 1 (columns / bcSize) := by
    unfold constBlocks; generalize columns / bcSize = q; split <;> omega
  unfold cooToCsbrConst
  rw [constOffsets_spec hbs1 (by omega) hrows, ok_bind, constOffsets_spec hbs2 (by omega) hcols, ok_bind]
  exact C08_csbr_spmv M workers rows columns es _ _ _ _ (constOff_partition rows brSize)
    (constOff_partition columns bcSize) hw hne hlen (by rw [hb1, hb2]; exact hgrid) hrows (by omega)
    (constBlocks_le (by omega)) (constBlocks_le (by omega)) hin nx ny hnx hny x y

/-- C08 in a semiring: `y` becomes `y + A x` for the matrix `A` the entries denote. -/
theorem C08_csbr_mulVec [NonUnitalNonAssocSemiring T] (M workers rows columns : Nat) (es : List (Element T))
    (offR : List Nat) (blockrows : Nat) (offC : List Nat) (blockcols : Nat)
    (PR : Partition offR blockrows rows) (PC : Partition offC blockcols columns)
    (hw : 0 < workers) (hne : es ≠ []) (hlen : es.length < M) (hgrid : blockrows * blockcols < M)
    (hrows : rows + 1 < M) (hcols : columns < M) (hbr : blockrows ≤ rows) (hbc : blockcols ≤ columns)
    (hin : InRange (ents es) rows columns) (x y : Nat → T) :
    ∃ A es' y', cooToCsbr M workers es rows columns offR blockrows offC blockcols = .ok (A, es') ∧
      A.spmv M (Buf.full columns x) (Buf.full rows y) = .ok (Buf.full rows y') ∧
      ∀ i : Fin rows, y' i = y i + (toMatrix (ents es) rows columns).mulVec (fun j => x j) i := by
  obtain ⟨A, es', h1, h2⟩ := C08_csbr_spmv M workers rows columns es offR blockrows offC blockcols PR PC hw hne
    hlen hgrid hrows hcols hbr hbc hin columns rows (Nat.le_refl _) (Nat.le_refl _) x y
  refine ⟨A, es', _, h1, h2, fun i => ?_⟩
  rw [spmvExact_eq_sum, spmvSum_eq_mulVec _ rows columns hin]

/-- The hypotheses of C08 are met by an irregular 2×2 partition of a 5×4 matrix, entries out of
order and with a duplicate coordinate. -/
example : Partition [0, 2, 5] 2 5 ∧ Partition [0, 1, 4] 2 4 ∧
    InRange (ents [(⟨4, 3, 5, 0⟩ : Element Int), ⟨0, 0, 2, 0⟩, ⟨1, 3, 7, 0⟩, ⟨4, 3, 1, 0⟩]) 5 4 ∧
    2 * 2 < 2 ^ 32 ∧ 2 ≤ 5 ∧ 2 ≤ 4 :=
  ⟨⟨rfl, rfl, rfl, by decide⟩, ⟨rfl, rfl, rfl, by decide⟩, by decide, by decide, by decide, by decide⟩

/-- **C09.** The same for `Csbr2`, which keeps global column indices and one running row pointer. -/
theorem C09_csbr2_spmv [Add T] [Mul T] (M rows columns : Nat) (es : List (Element T))
    (offR : List Nat) (blockrows : Nat) (offC : List Nat) (blockcols : Nat)
    (PR : Partition offR blockrows rows) (PC : Partition offC blockcols columns)
    (hne : es ≠ []) (hlen : es.length < M) (hgrid : blockrows * blockcols < M)
    (hrows : rows + 1 < M) (hcols : columns < M) (hbr : blockrows ≤ rows) (hbc : blockcols ≤ columns)
    (hin : InRange (ents es) rows columns)
    (nx ny : Nat) (hnx : columns ≤ nx) (hny : rows ≤ ny) (x y : Nat → T) :
    ∃ A es', cooToCsbr2 M es rows columns offR blockrows offC blockcols = .ok (A, es') ∧
      A.spmv M (Buf.full nx x) (Buf.full ny y) = .ok (Buf.full ny (spmvExact (ents es) x y)) := by
  refine ⟨_, _, csbr2_main PR PC hne hlen hgrid hrows hcols hbr hbc hin, ?_⟩
  have H := prepared_blkIn (M := M) PR PC hne hlen hgrid hrows hcols hbr (by omega) hin
  rw [csbr2_spmv H (fun i hi => PR.rd_ok i hi) (fun i j hij hj => PR.mono hij hj)
    (fun i hi => by have := PR.le_total hi; omega) PR.at_last nx ny (fun e he => by
      have := (hin _ (mem_prepared he).2).2; simp only at this; omega) hny x y, prepared_exact]

/-- C09 for constant block sizes. -/
theorem C09_csbr2_const [Add T] [Mul T] (M rows columns brSize bcSize : Nat) (es : List (Element T))
    (hbs1 : 0 < brSize) (hbs2 : 0 < bcSize) (hne : es ≠ []) (hlen : es.length < M)
    (hgrid : max 1 (rows / brSize) * max 1 (columns / bcSize) < M)
    (hrows : rows + 1 < M) (hcols : columns + 1 < M)
    (hin : InRange (ents es) rows columns)
    (nx ny : Nat) (hnx : columns ≤ nx) (hny : rows ≤ ny) (x y : Nat → T) :
    ∃ A es', cooToCsbr2Const M es rows columns brSize bcSize = .ok (A, es') ∧
      A.spmv M (Buf.full nx x) (Buf.full ny y) = .ok (Buf.full ny (spmvExact (ents es) x y)) := by
  obtain ⟨e0, he0⟩ := List.exists_mem_of_ne_nil es hne
  have h0 := hin _ (List.mem_map_of_mem (f := NZ.toEnt) he0)
  have hb1 : constBlocks rows brSize = max 1 (rows / brSize) := by
    unfold constBlocks; generalize rows / brSize = q; split <;> omega
  have hb2 : constBlocks columns bcSize = max 1 (columns / bcSize) := by
    unfold constBlocks; generalize columns / bcSize = q; split <;> omega
  unfold cooToCsbr2Const
  rw [constOffsets_spec hbs1 (by omega) hrows, ok_bind, constOffsets_spec hbs2 (by omega) hcols, ok_bind]
  exact C09_csbr2_spmv M rows columns es _ _ _ _ (constOff_partition rows brSize)
    (constOff_partition columns bcSize) hne hlen (by rw [hb1, hb2]; exact hgrid) hrows (by omega)
    (constBlocks_le (by omega)) (constBlocks_le (by omega)) hin nx ny hnx hny x y

/-- **C10.** Constant square blocks of size `bs ≤ S`, `S` the number of values of the small index
type: construction succeeds and the kernel is exact. -/
theorem C10_csbr3_spmv [Add T] [Mul T] (M S rows columns bs : Nat) (es : List (Element T))
    (hbs : 0 < bs) (hS : bs ≤ S) (hne : es ≠ []) (hlen : es.length + 1 < M)
    (hgrid : ((rows + bs - 1) / bs) * ((columns + bs - 1) / bs) < M)
    (hrows : rows + bs < M) (hcols : columns + bs < M) (hin : InRange (ents es) rows columns)
    (nx ny : Nat) (hnx : columns ≤ nx) (hny : rows ≤ ny) (x y : Nat → T) :
    ∃ A es', cooToCsbr3 M S es rows columns bs = .ok (A, es') ∧
      A.spmvBalanced M (Buf.full nx x) (Buf.full ny y) = .ok (Buf.full ny (spmvExact (ents es) x y)) := by
  refine ⟨_, _, csbr3_main hbs hne hlen hgrid hrows hcols hin, ?_⟩
  have H := prepared3_blkIn (M := M) hbs hne (by omega) hgrid hrows hcols hin
  rw [csbr3_spmv H nx ny (fun e he => by
      have := (hin _ (mem_prepared3 he).2).2; simp only at this; omega) (fun e he => by
      have := (hin _ (mem_prepared3 he).2).1; simp only at this; omega)]
  congr 2
  rw [← sortBlocks_exact (fun r c => r / bs * ((columns + bs - 1) / bs) + c / bs) es (fun a _ b _ h1 h2 => by
    have := Nat.div_le_div_right (c := bs) h2
    rw [h1]; omega)]
  congr 1
  unfold ents
  refine List.map_congr_left (fun e he => ?_)
  have h1 := H.inR e he
  have h2 := H.inC e he
  rw [Nat.add_mul] at h1 h2
  simp only [NZ.toEnt]
  have e1 : (e.row - e.block / ((columns + bs - 1) / bs) * bs) % S = e.row - e.block / ((columns + bs - 1) / bs) * bs :=
    Nat.mod_eq_of_lt (by omega)
  have e2 : (e.col - e.block % ((columns + bs - 1) / bs) * bs) % S = e.col - e.block % ((columns + bs - 1) / bs) * bs :=
    Nat.mod_eq_of_lt (by omega)
  rw [e1, e2, Nat.add_sub_cancel' h1.1, Nat.add_sub_cancel' h2.1]

/-- C10 without the bound on `bs`: nothing is reported, and the product is that of the matrix whose
entries have their in-block indices reduced modulo `S`. -/
theorem C10_csbr3_truncates [Add T] [Mul T] (M S rows columns bs : Nat) (es : List (Element T))
    (hbs : 0 < bs) (hne : es ≠ []) (hlen : es.length + 1 < M)
    (hgrid : ((rows + bs - 1) / bs) * ((columns + bs - 1) / bs) < M)
    (hrows : rows + bs < M) (hcols : columns + bs < M) (hin : InRange (ents es) rows columns)
    (nx ny : Nat) (hnx : columns ≤ nx) (hny : rows ≤ ny) (x y : Nat → T) :
    ∃ A es', cooToCsbr3 M S es rows columns bs = .ok (A, es') ∧ (ents es').Perm (ents es) ∧
      A.spmvBalanced M (Buf.full nx x) (Buf.full ny y) = .ok (Buf.full ny (spmvInOrder
        ((ents es').map (fun e => ⟨e.row / bs * bs + e.row % bs % S, e.col / bs * bs + e.col % bs % S, e.val⟩)) x y)) := by
  refine ⟨_, _, csbr3_main hbs hne hlen hgrid hrows hcols hin, prepared3_ents_perm, ?_⟩
  have H := prepared3_blkIn (M := M) hbs hne (by omega) hgrid hrows hcols hin
  rw [csbr3_spmv H nx ny (fun e he => by
      have := (hin _ (mem_prepared3 he).2).2; simp only at this; omega) (fun e he => by
      have := (hin _ (mem_prepared3 he).2).1; simp only at this; omega)]
  congr 3
  unfold ents
  rw [List.map_map]
  refine List.map_congr_left (fun e he => ?_)
  have hb := (mem_prepared3 he).1
  have hc := ceil_lt hbs (hin _ (mem_prepared3 he).2).2
  simp only at hc
  simp only [NZ.toEnt, Function.comp, hb, key_div hc, key_mod hc]
  have e1 : e.row - e.row / bs * bs = e.row % bs := by
    have := Nat.div_add_mod e.row bs; rw [Nat.mul_comm] at this; omega
  have e2 : e.col - e.col / bs * bs = e.col % bs := by
    have := Nat.div_add_mod e.col bs; rw [Nat.mul_comm] at this; omega
  rw [e1, e2]

/-- With 16-bit small indices, block size 70000 puts the entry of row 65536 in row 0. -/
example : ((⟨65536, 1, (1 : Int)⟩ : Ent Int).row / 70000 * 70000 + 65536 % 70000 % 2 ^ 16) = 0 ∧
    InRange (ents [(⟨65536, 1, 1, 0⟩ : Element Int)]) 70000 70000 ∧
    ((70000 + 70000 - 1) / 70000) * ((70000 + 70000 - 1) / 70000) < 2 ^ 32 := by decide

/-! ### Block helpers -/

/-- **C20.** Constant block size: the offsets form a partition of `[0, n)`; every block has at
least `size` and less than `2*size` indices, unless `n < size`, when there is one block. -/
theorem C20_const_offsets (M n size : Nat) (hs : 0 < size) (hn : 0 < n) (hM : n + 1 < M) :
    ∃ b off, constOffsets M n size = .ok (b, off) ∧ Partition off b n ∧ b = max 1 (n / size) ∧
      (n < size → off = [0, n]) ∧
      (size ≤ n → ∀ i, i < b → ∃ lo hi, off[i]? = some lo ∧ off[i + 1]? = some hi ∧ lo = i * size ∧
        lo + size ≤ hi ∧ hi < lo + 2 * size ∧ (i + 1 < b → hi = lo + size)) := by
  refine ⟨_, _, constOffsets_spec hs hn hM, constOff_partition n size, ?_, ?_, ?_⟩
  · unfold constBlocks; generalize n / size = q; split <;> omega
  · intro h
    have hb : constBlocks n size = 1 := by unfold constBlocks; rw [Nat.div_eq_of_lt h]; rfl
    simp [constOff, hb]
  · intro h i hi
    have hq : 0 < n / size := Nat.div_pos h hs
    have hb : constBlocks n size = n / size := by
      unfold constBlocks; generalize n / size = q at *; rw [if_neg (by omega)]
    have hlt : n < (n / size + 1) * size := by rw [Nat.mul_comm]; exact Nat.lt_mul_div_succ n hs
    have hle := Nat.div_mul_le_self n size
    rw [Nat.add_mul] at hlt
    by_cases hl : i + 1 < constBlocks n size
    · refine ⟨_, _, constOff_lt hi, constOff_lt hl, rfl, ?_, ?_, fun _ => ?_⟩ <;> rw [Nat.add_mul] <;> omega
    · have e : i + 1 = constBlocks n size := by omega
      refine ⟨_, n, constOff_lt hi, by rw [e]; exact constOff_last n size, rfl, ?_, ?_, fun h => absurd h hl⟩
      all_goals
        have : (i + 1) * size = n / size * size := by rw [e, hb]
        rw [Nat.add_mul] at this
        omega

/-- A zero block size divides by zero. -/
theorem C20_zero_size (M n : Nat) : constOffsets M n 0 = .error .divZero := rfl

/-- **C21.** `index_to_blockindex` returns the block containing the index. -/
theorem C21_index_to_blockindex (M : Nat) (off : List Nat) (n total v : Nat) (P : Partition off n total)
    (hM : n < M) (hv : v < total) :
    ∃ b, indexToBlockindex M off n v = .ok b ∧ b < n ∧ InBlockRange off b v := by
  refine ⟨_, P.bidx_ok hM hv, P.bidx_lt hv, ?_⟩
  have h1 := P.bidx_lt hv
  have h2 := P.len
  refine ⟨_, _, List.getElem?_eq_getElem (show bidx off n v < off.length by omega),
    List.getElem?_eq_getElem (show bidx off n v + 1 < off.length by omega), ?_, ?_⟩
  · rw [← offF_eq]; exact P.bidx_lo hv
  · rw [← offF_eq]; exact P.bidx_hi hv

/-- C21: no other block contains it (blocks may be empty, but a non-empty one is unique). -/
theorem C21_unique (off : List Nat) (n total v : Nat) (P : Partition off n total) (b c : Nat)
    (hb : InBlockRange off b v) (hc : InBlockRange off c v) : b = c := by
  obtain ⟨l1, h1, a1, a2, a3, a4⟩ := hb
  obtain ⟨l2, h2, b1, b2, b3, b4⟩ := hc
  have hm := List.pairwise_iff_getElem.1 P.sorted
  obtain ⟨q1, r1⟩ := List.getElem?_eq_some_iff.1 a1
  obtain ⟨q2, r2⟩ := List.getElem?_eq_some_iff.1 a2
  obtain ⟨q3, r3⟩ := List.getElem?_eq_some_iff.1 b1
  obtain ⟨q4, r4⟩ := List.getElem?_eq_some_iff.1 b2
  rcases Nat.lt_trichotomy b c with h | h | h
  · rcases Nat.eq_or_lt_of_le (show b + 1 ≤ c by omega) with h' | h'
    · subst h'; omega
    · have := hm _ _ q2 q3 h'; omega
  · exact h
  · rcases Nat.eq_or_lt_of_le (show c + 1 ≤ b by omega) with h' | h'
    · subst h'; omega
    · have := hm _ _ q4 q1 h'; omega

theorem sizeToOffset_go (M : Nat) (l : List Nat) (acc k : Nat) (hk : k < l.length) :
    (sizeToOffset.go M acc l)[k]? = some ((acc + (l.take (k + 1)).sum) % M) := by
  induction l generalizing acc k with
  | nil => simp at hk
  | cons s t ih =>
    cases k with
    | zero => simp [sizeToOffset.go, addM]
    | succ k =>
      simp only [sizeToOffset.go, List.getElem?_cons_succ]
      rw [ih (addM M acc s) k (by simpa using hk)]
      simp only [addM, List.take_succ_cons, List.sum_cons, Nat.mod_add_mod]
      congr 2; omega

/-- **C22.** `size_to_offset`: entry `k` is the sum of the first `k` sizes modulo `M`. -/
theorem C22_size_to_offset (M : Nat) (sizes : List Nat) (hs : ∀ s ∈ sizes, s < M) :
    (sizeToOffset M sizes).length = sizes.length + 1 ∧
    ∀ k, k ≤ sizes.length → (sizeToOffset M sizes)[k]? = some ((sizes.take k).sum % M) := by
  have hgo : ∀ (l : List Nat) acc, (sizeToOffset.go M acc l).length = l.length := by
    intro l
    induction l with
    | nil => intro acc; rfl
    | cons s t ih => intro acc; simp [sizeToOffset.go, ih]
  cases sizes with
  | nil =>
    refine ⟨rfl, ?_⟩
    intro k hk
    have : k = 0 := by simpa using hk
    subst this; simp [sizeToOffset]
  | cons s t =>
    refine ⟨by simp [sizeToOffset, hgo], ?_⟩
    intro k hk
    match k with
    | 0 => simp [sizeToOffset]
    | 1 => simp [sizeToOffset, Nat.mod_eq_of_lt (hs s (by simp))]
    | k + 2 =>
      simp only [sizeToOffset, List.getElem?_cons_succ]
      rw [sizeToOffset_go M t s k (by simp at hk; omega)]
      simp

/-- C22: when the total fits, the result is a partition of `[0, total)`. -/
theorem C22_partition (M : Nat) (sizes : List Nat) (h : sizes.sum < M) :
    Partition (sizeToOffset M sizes) sizes.length sizes.sum := by
  have hle : ∀ s ∈ sizes, s < M := fun s hs => Nat.lt_of_le_of_lt (List.le_sum_of_mem hs) h
  obtain ⟨h1, h2⟩ := C22_size_to_offset M sizes hle
  have hsum : ∀ k, (sizes.take k).sum ≤ sizes.sum := fun k => by
    conv => rhs; rw [← List.take_append_drop k sizes, List.sum_append]
    omega
  have h3 : ∀ k, k ≤ sizes.length → (sizeToOffset M sizes)[k]? = some (sizes.take k).sum := fun k hk => by
    rw [h2 k hk, Nat.mod_eq_of_lt (Nat.lt_of_le_of_lt (hsum k) h)]
  refine ⟨h1, by simpa using h3 0 (Nat.zero_le _), by simpa using h3 _ (Nat.le_refl _), ?_⟩
  rw [List.pairwise_iff_getElem]
  intro i j hi hj hij
  have a1 := h3 i (by omega)
  have a2 := h3 j (by omega)
  rw [List.getElem?_eq_getElem hi] at a1
  rw [List.getElem?_eq_getElem hj] at a2
  simp only [Option.some.injEq] at a1 a2
  rw [a1, a2]
  have : sizes.take j = sizes.take i ++ (sizes.take j).drop i := by
    conv => lhs; rw [← List.take_append_drop i (sizes.take j), List.take_take, Nat.min_eq_left (by omega)]
  rw [this, List.sum_append]; omega

/-- **C23.** Block ids name the block that contains the element; the block sort is a stable
permutation ordered by block, row, column; `count_blocks` counts the distinct ids. -/
theorem C23_blocks (M rows columns : Nat) (es : List (Element T)) (offR : List Nat) (blockrows : Nat)
    (offC : List Nat) (blockcols : Nat) (PR : Partition offR blockrows rows) (PC : Partition offC blockcols columns)
    (hR : blockrows < M) (hC : blockcols < M) (hgrid : blockrows * blockcols ≤ M)
    (hin : InRange (ents es) rows columns) :
    ∃ es', calculateBlockId M es offR blockrows offC blockcols = .ok es' ∧ ents es' = ents es ∧
      (∀ e ∈ es', InBlockRange offR (e.block / blockcols) e.row ∧ InBlockRange offC (e.block % blockcols) e.col ∧
        e.block < blockrows * blockcols) ∧
      IsStableSort (leOf ltBlocks) es' (sortElementsBlocks es') ∧
      (sortElementsBlocks es').Pairwise (fun a b => a.block < b.block ∨ a.block = b.block ∧
        (a.row < b.row ∨ a.row = b.row ∧ a.col ≤ b.col)) ∧
      (es ≠ [] → es.length < M →
        countBlocks M (sortElementsBlocks es') = .ok ((es'.map Element.block).dedup.length)) := by
  refine ⟨_, calculateBlockId_spec PR PC hR hC hgrid hin, by simp only [ents, List.map_map]; rfl, ?_,
    isStableSort_mergeSort totalPre_blocks _, sortBlocks_sorted _, ?_⟩
  · intro e he
    obtain ⟨a, ha, rfl⟩ := List.mem_map.1 he
    have h := hin _ (List.mem_map_of_mem (f := NZ.toEnt) ha)
    have h1 : a.row < rows := h.1
    have h2 : a.col < columns := h.2
    obtain ⟨b, b1, b2, b3⟩ := C21_index_to_blockindex M offR blockrows rows a.row PR hR h1
    obtain ⟨c, c1, c2, c3⟩ := C21_index_to_blockindex M offC blockcols columns a.col PC hC h2
    have eb : bidx offR blockrows a.row = b := by rw [PR.bidx_ok hR h1] at b1; simpa using b1
    have ec : bidx offC blockcols a.col = c := by rw [PC.bidx_ok hC h2] at c1; simpa using c1
    simp only [withKey, blockKey, eb, ec, key_div c2, key_mod c2]
    exact ⟨b3, c3, key_lt b2 c2⟩
  · intro hne hlen
    generalize hes' : es.map (withKey (blockKey offR blockrows offC blockcols)) = es'
    have hl : es'.length = es.length := by rw [← hes']; simp
    have hp := sortBlocks_perm es'
    rw [countBlocks_spec M _ (by
      intro h
      have := hp.length_eq
      rw [h] at this
      simp at this
      rw [hl] at this
      exact hne (List.length_eq_zero_iff.1 this.symm)) (by rw [hp.length_eq, hl]; exact hlen)
      ((sortBlocks_sorted _).imp (fun h => by omega))]
    congr 1
    rw [← runKeys_length]
    have hs := runKeys_sorted Element.block (sortElementsBlocks es') ((sortBlocks_sorted _).imp (fun h => by omega))
    have hnd : (runKeys Element.block (sortElementsBlocks es')).Nodup := hs.imp (fun h => Nat.ne_of_lt h)
    refine ((List.perm_ext_iff_of_nodup hnd (List.nodup_dedup _)).2 (fun k => ?_)).length_eq
    rw [mem_runKeys, List.mem_dedup, List.mem_map]
    constructor
    · rintro ⟨a, ha, rfl⟩; exact ⟨a, hp.mem_iff.1 ha, rfl⟩
    · rintro ⟨a, ha, rfl⟩; exact ⟨a, hp.mem_iff.2 ha, rfl⟩

/-- C23: `count_blocks` of an empty array reads element 0. -/
theorem C23_empty (M : Nat) : countBlocks M ([] : List (Element T)) = .error .oob := rfl

/-- Empty matrices make every blocked constructor fail this way. -/
theorem C23_empty_csbr [Add T] [Mul T] (M workers rows columns : Nat) (offR : List Nat) (blockrows : Nat)
    (offC : List Nat) (blockcols : Nat) :
    cooToCsbr M workers ([] : List (Element T)) rows columns offR blockrows offC blockcols = .error .oob ∧
    cooToCsbr2 M ([] : List (Element T)) rows columns offR blockrows offC blockcols = .error .oob := by
  constructor
  · simp [cooToCsbr, calculateBlockId, sortElementsBlocks, pssSort, csbrBuild, countBlocks, rd, pure, Except.pure]
  · simp [cooToCsbr2, calculateBlockId, sortElementsBlocks, pssSort, csbr2Build, countBlocks, rd, pure, Except.pure]

/-- **C54.** With more blocks than index values, two entries of different blocks get the same id. -/
theorem C54_ids_collide (M rows columns : Nat) (offR : List Nat) (blockrows : Nat) (offC : List Nat) (blockcols : Nat)
    (PR : Partition offR blockrows rows) (PC : Partition offC blockcols columns)
    (hR : blockrows < M) (hC : blockcols < M) (hgrid : M < blockrows * blockcols)
    (hsR : offR.Pairwise (· < ·)) (hsC : offC.Pairwise (· < ·)) (v : T) :
    ∃ a b : Element T, InRange (ents [a, b]) rows columns ∧
      (∀ i, InBlockRange offR i a.row → ¬ InBlockRange offR i b.row) ∧
      ∃ a' b', calculateBlockId M [a, b] offR blockrows offC blockcols = .ok [a', b'] ∧ a'.block = b'.block := by
  have hbc : 0 < blockcols := by
    rcases Nat.eq_zero_or_pos blockcols with h | h
    · subst h; simp at hgrid
    · exact h
  have hbr : M / blockcols < blockrows := (Nat.div_lt_iff_lt_mul hbc).2 hgrid
  have hq : 0 < M / blockcols := Nat.div_pos (Nat.le_of_lt hC) hbc
  have hm := Nat.mod_lt M hbc
  have lenR := PR.len
  have lenC := PC.len
  have stR : ∀ i, i < blockrows → offF offR i < offF offR (i + 1) := fun i hi => by
    rw [offF_eq (by omega), offF_eq (by omega)]
    exact List.pairwise_iff_getElem.1 hsR i (i+1) (by omega) (by omega) (by omega)
  have stC : ∀ i, i < blockcols → offF offC i < offF offC (i + 1) := fun i hi => by
    rw [offF_eq (by omega), offF_eq (by omega)]
    exact List.pairwise_iff_getElem.1 hsC i (i+1) (by omega) (by omega) (by omega)
  have totR : ∀ i, i < blockrows → offF offR i < rows := fun i hi =>
    Nat.lt_of_lt_of_le (stR i hi) (PR.le_total hi)
  have totC : ∀ i, i < blockcols → offF offC i < columns := fun i hi =>
    Nat.lt_of_lt_of_le (stC i hi) (PC.le_total hi)
  have inR : ∀ i, i < blockrows → InBlockRange offR i (offF offR i) := fun i hi =>
    ⟨_, _, List.getElem?_eq_getElem (show i < offR.length by omega), List.getElem?_eq_getElem (show i + 1 < offR.length by omega),
      by rw [offF_eq (by omega)], by rw [← offF_eq (by omega)]; exact stR i hi⟩
  have inC : ∀ i, i < blockcols → InBlockRange offC i (offF offC i) := fun i hi =>
    ⟨_, _, List.getElem?_eq_getElem (show i < offC.length by omega), List.getElem?_eq_getElem (show i + 1 < offC.length by omega),
      by rw [offF_eq (by omega)], by rw [← offF_eq (by omega)]; exact stC i hi⟩
  have idR : ∀ i, i < blockrows → indexToBlockindex M offR blockrows (offF offR i) = .ok i := fun i hi => by
    obtain ⟨b, b1, b2, b3⟩ := C21_index_to_blockindex M offR blockrows rows _ PR hR (totR i hi)
    rw [b1, C21_unique offR blockrows rows _ PR b i b3 (inR i hi)]
  have idC : ∀ i, i < blockcols → indexToBlockindex M offC blockcols (offF offC i) = .ok i := fun i hi => by
    obtain ⟨b, b1, b2, b3⟩ := C21_index_to_blockindex M offC blockcols columns _ PC hC (totC i hi)
    rw [b1, C21_unique offC blockcols columns _ PC b i b3 (inC i hi)]
  refine ⟨⟨offF offR 0, offF offC 0, v, 0⟩, ⟨offF offR (M / blockcols), offF offC (M % blockcols), v, 0⟩, ?_, ?_, ?_⟩
  · intro e he
    simp only [ents, List.map_cons, List.map_nil, List.mem_cons, List.not_mem_nil, or_false] at he
    rcases he with rfl | rfl
    · exact ⟨totR 0 (by omega), totC 0 hbc⟩
    · exact ⟨totR _ hbr, totC _ hm⟩
  · intro i h1 h2
    have e1 := C21_unique offR blockrows rows _ PR i 0 h1 (inR 0 (by omega))
    have e2 := C21_unique offR blockrows rows _ PR i _ h2 (inR _ hbr)
    omega
  · unfold calculateBlockId
    simp only [List.mapM_cons, List.mapM_nil]
    rw [idR 0 (by omega), idC 0 hbc, idR _ hbr, idC _ hm]
    simp only [ok_bind]
    refine ⟨_, _, rfl, ?_⟩
    simp only [addM, mulM]
    have := Nat.div_add_mod M blockcols
    rw [Nat.mul_comm] at this
    have h2 : (M / blockcols * blockcols % M + M % blockcols) % M = 0 := by
      rw [Nat.mod_add_mod, this]; simp
    rw [h2]; simp

/-- C54: with exactly as many blocks as index values, a matrix whose only entry is in the last
block collides with the start value of `prev_b`: its block is never opened and the first element
uses uninitialised variables. -/
theorem C54_sentinel [Add T] [Mul T] (M workers rows columns : Nat) (offR : List Nat) (blockrows : Nat)
    (offC : List Nat) (blockcols : Nat) (PR : Partition offR blockrows rows) (PC : Partition offC blockcols columns)
    (hR : blockrows < M) (hC : blockcols < M) (hgrid : blockrows * blockcols = M)
    (hbr : blockrows ≤ rows) (hbc : blockcols ≤ columns) (hM : 1 < M)
    (r c : Nat) (v : T) (hr : InBlockRange offR (blockrows - 1) r) (hc : InBlockRange offC (blockcols - 1) c) :
    cooToCsbr M workers [⟨r, c, v, 0⟩] rows columns offR blockrows offC blockcols = .error .uninit := by
  have hbcp : 0 < blockcols := by
    rcases Nat.eq_zero_or_pos blockcols with h | h
    · subst h; omega
    · exact h
  have hbrp : 0 < blockrows := by
    rcases Nat.eq_zero_or_pos blockrows with h | h
    · subst h; omega
    · exact h
  have below : ∀ (off : List Nat) (n total b i : Nat), Partition off n total → 0 < n → InBlockRange off (n - 1) i → i < total := by
    intro off n total _ i P hn h
    obtain ⟨lo, hi, h1, h2, h3, h4⟩ := h
    rw [Nat.sub_add_cancel hn, P.last] at h2
    simp at h2; omega
  have hr' := below offR blockrows rows 0 r PR hbrp hr
  have hc' := below offC blockcols columns 0 c PC hbcp hc
  have key : blockKey offR blockrows offC blockcols r c = M - 1 := by
    unfold blockKey
    have e1 : bidx offR blockrows r = blockrows - 1 := by
      obtain ⟨b, b1, b2, b3⟩ := C21_index_to_blockindex M offR blockrows rows _ PR hR hr'
      rw [PR.bidx_ok hR hr'] at b1
      simp at b1
      rw [b1]; exact C21_unique offR blockrows rows _ PR b _ b3 hr
    have e2 : bidx offC blockcols c = blockcols - 1 := by
      obtain ⟨b, b1, b2, b3⟩ := C21_index_to_blockindex M offC blockcols columns _ PC hC hc'
      rw [PC.bidx_ok hC hc'] at b1
      simp at b1
      rw [b1]; exact C21_unique offC blockcols columns _ PC b _ b3 hc
    rw [e1, e2, ← hgrid]
    obtain ⟨a, rfl⟩ : ∃ a, blockrows = a + 1 := ⟨blockrows - 1, by omega⟩
    rw [Nat.add_sub_cancel, Nat.add_mul]; omega
  unfold cooToCsbr
  rw [calculateBlockId_spec PR PC hR hC (by omega) (by
    intro e he
    simp only [ents, List.map_cons, List.map_nil, List.mem_cons, List.not_mem_nil, or_false] at he
    subst he
    exact ⟨hr', hc'⟩), ok_bind]
  simp only [List.map_cons, List.map_nil, withKey, key]
  have hsort : sortElementsBlocks [(⟨r, c, v, M - 1⟩ : Element T)] = [⟨r, c, v, M - 1⟩] := by
    simp [sortElementsBlocks, pssSort]
  rw [hsort]
  unfold csbrBuild
  rw [countBlocks_spec M _ (by simp) (by simpa using hM) (by simp), ok_bind,
    checkPartition_ok hbr hbc (fun i hi => PR.rd_ok i hi) (fun i hi => PC.rd_ok i hi) PR.at_last PC.at_last, ok_bind]
  simp only [List.length_singleton]
  rw [forLoop_step (by omega)]
  simp [scanStep, elemBlock, rd, csbrElement, needCur]

/-- Such grids exist: 2^16 × 2^16 blocks of one index each, for 32-bit indices. -/
example : (2 ^ 16) * (2 ^ 16) = 2 ^ 32 ∧ 2 ^ 16 < 2 ^ 32 ∧ Partition [0, 1, 2] 2 2 :=
  ⟨by decide, by decide, ⟨rfl, rfl, rfl, by decide⟩⟩

end Gsb
