import Verif.Proof.Result
import Verif.Props.Coo
import Verif.Props.Csbr
import Verif.Props.Cgbr
import Verif.Props.Other
/-
C83: the matrix that is built does not depend on the order of the entries in the input.
-/
namespace Gsb
variable {T : Type}

/-! ### Sorting -/

/-- Lists with the same entries at every place, in the same order there, have the same stable sort under an order that only
compares equal what is at the same place. -/
theorem mergeSort_samePlaces {le : Ent T → Ent T → Bool} (hle : TotalPre le) {L L' : List (Ent T)} (h : SamePlaces L L')
    (heq : ∀ a ∈ L, ∀ b ∈ L, le a b = true → le b a = true → a.row = b.row ∧ a.col = b.col)
    (heq' : ∀ a b : Ent T, a.row = b.row → a.col = b.col → le a b = true) :
    L.mergeSort le = L'.mergeSort le := by
  refine isStableSort_unique hle (l := L') ?_ (isStableSort_mergeSort hle L')
  have hm := isStableSort_mergeSort hle L
  refine ⟨hm.perm.trans h.perm, hm.sorted, fun a => ?_⟩
  rw [hm.stable a]
  by_cases ha : ∃ c ∈ L, le a c = true ∧ le c a = true
  · obtain ⟨c, hc, h1, h2⟩ := ha
    have hf : ∀ l : List (Ent T), (∀ b ∈ l, b ∈ L) → l.filter (fun b => le a b && le b a) =
        l.filter (fun b => b.row == c.row && b.col == c.col) := by
      intro l hl
      refine List.filter_congr (fun b hb => ?_)
      rw [Bool.eq_iff_iff]
      simp only [Bool.and_eq_true, beq_iff_eq]
      constructor
      · rintro ⟨h3, h4⟩
        have := heq b (hl b hb) c hc (hle.trans _ _ _ h4 h1) (hle.trans _ _ _ h2 h3)
        exact this
      · rintro ⟨h3, h4⟩
        exact ⟨hle.trans _ _ _ h1 (heq' _ _ h3.symm h4.symm), hle.trans _ _ _ (heq' _ _ h3 h4) h2⟩
    rw [hf L (fun _ h => h), hf L' (fun b hb => h.perm.mem_iff.2 hb), h.places]
  · have hn : ∀ l : List (Ent T), (∀ b ∈ l, b ∈ L) → l.filter (fun b => le a b && le b a) = [] := by
      intro l hl
      rw [List.filter_eq_nil_iff]
      intro b hb hc
      simp only [Bool.and_eq_true] at hc
      exact ha ⟨b, hl b hb, hc⟩
    rw [hn L (fun _ h => h), hn L' (fun b hb => h.perm.mem_iff.2 hb)]

/-- **C83**: if no place is used twice, every order of the entries will do. -/
theorem C83_distinct {L L' : List (Ent T)} (hd : Distinct L) (hp : L.Perm L') : SamePlaces L L' := by
  refine ⟨hp, fun i j => ?_⟩
  have hf := hp.filter (fun e => e.row == i && e.col == j)
  have hle : (L.filter (fun e => e.row == i && e.col == j)).length ≤ 1 := by
    by_contra hc
    have hd' : (L.filter (fun e => e.row == i && e.col == j)).Pairwise (fun a b => ¬ (a.row = b.row ∧ a.col = b.col)) := by
      unfold Distinct at hd
      exact hd.filter _
    rcases hl : L.filter (fun e => e.row == i && e.col == j) with _ | ⟨a, _ | ⟨b, t⟩⟩
    · rw [hl] at hc; simp at hc
    · rw [hl] at hc; simp at hc
    · have ha : a ∈ L.filter (fun e => e.row == i && e.col == j) := by rw [hl]; simp
      have hb : b ∈ L.filter (fun e => e.row == i && e.col == j) := by rw [hl]; simp
      simp only [List.mem_filter, Bool.and_eq_true, beq_iff_eq] at ha hb
      rw [hl, List.pairwise_cons] at hd'
      exact hd'.1 b (by simp) ⟨by omega, by omega⟩
  rcases hl : L.filter (fun e => e.row == i && e.col == j) with _ | ⟨a, t⟩
  · rw [hl] at hf
    rw [hl, List.nil_perm.1 hf]
  · rw [hl] at hle hf
    have ht : t = [] := by
      cases t
      · rfl
      · simp at hle
    subst ht
    rw [hl, ← List.singleton_perm.1 hf]

theorem map_pssSort {ε ε' : Type} (f : ε → ε') (lt : ε' → ε' → Bool) (es : List ε) :
    (pssSort (fun a b => lt (f a) (f b)) es).map f = pssSort lt (es.map f) := by
  unfold pssSort
  exact List.map_mergeSort (fun a _ b _ => rfl)

section
variable {ε ε' : Type} [NZ ε T] [NZ ε' T]

theorem sortTriplets_samePlaces {es : List ε} {es' : List ε'} (h : SamePlaces (ents es) (ents es')) :
    ents (sortTriplets es) = ents (sortTriplets es') := by
  have hall : ∀ {ε : Type} [NZ ε T] (es : List ε), ents (sortTriplets es) = pssSort (ltRowMajor (ε := Ent T)) (ents es) := by
    intro ε _ es
    exact map_pssSort NZ.toEnt (ltRowMajor (ε := Ent T)) es
  rw [hall, hall]
  refine mergeSort_samePlaces totalPre_rowMajor h ?_ ?_
  · intro a _ b _ h1 h2
    simp [leOf, ltRowMajor, NZ.toEnt] at h1 h2
    omega
  · intro a b h1 h2
    simp [leOf, ltRowMajor, NZ.toEnt, h1, h2]

theorem sortWide_samePlaces {width : Nat} {es : List ε} {es' : List ε'} (h : SamePlaces (ents es) (ents es')) :
    ents (sortTripletsWide width es) = ents (sortTripletsWide width es') := by
  have hall : ∀ {ε : Type} [NZ ε T] (es : List ε), ents (sortTripletsWide width es) = pssSort (ltWide (ε := Ent T) width) (ents es) := by
    intro ε _ es
    exact map_pssSort NZ.toEnt (ltWide (ε := Ent T) width) es
  rw [hall, hall]
  refine mergeSort_samePlaces (totalPre_wide width) h ?_ ?_
  · intro a _ b _ h1 h2
    simp [leOf, ltWide, NZ.toEnt] at h1 h2
    omega
  · intro a b h1 h2
    simp [leOf, ltWide, NZ.toEnt, h1, h2]

theorem sortMorton_samePlaces {M : Nat} (hM : 2 ^ 32 ≤ M) {es : List ε} {es' : List ε'} (h : SamePlaces (ents es) (ents es'))
    (hs : ∀ e ∈ ents es, e.row < 2 ^ 16 ∧ e.col < 2 ^ 16) :
    ents (sortTripletsMorton M es) = ents (sortTripletsMorton M es') := by
  have hall : ∀ {ε : Type} [NZ ε T] (es : List ε), ents (sortTripletsMorton M es) = pssSort (ltMorton (ε := Ent T) M) (ents es) := by
    intro ε _ es
    exact map_pssSort NZ.toEnt (ltMorton (ε := Ent T) M) es
  rw [hall, hall]
  refine mergeSort_samePlaces (totalPre_morton M) h ?_ ?_
  · intro a ha b hb h1 h2
    simp only [leOf, ltMorton, NZ.toEnt, id, Bool.not_eq_true', decide_eq_false_iff_not] at h1 h2
    exact C26_injective M _ _ _ _ hM (hs a ha).1 (hs a ha).2 (hs b hb).1 (hs b hb).2 (by omega)
  · intro a b h1 h2
    simp [leOf, ltMorton, NZ.toEnt, h1, h2]

end

/-! ### The conversions see only the entries -/

section
variable {ε ε' : Type} [NZ ε T] [NZ ε' T]

theorem rd_ents (es : List ε) (i : Nat) {β : Type} (k : Ent T → C β) :
    (rd es i >>= fun e => k (NZ.toEnt e)) = (rd (ents es) i >>= k) := by
  unfold rd ents
  rw [List.getElem?_map]
  cases es[i]? <;> rfl

theorem csrBuild_ents (M S : Nat) (es : List ε) (rows columns : Nat) :
    csrBuild M S es rows columns = csrBuild M S (ents es) rows columns := by
  have hl : (ents es).length = es.length := by simp [ents]
  have hs : csrFillStep M S es = csrFillStep M S (ents es) := by
    funext i s
    unfold csrFillStep
    exact rd_ents es i (fun e => do
      let ci ← s.1.put i (e.col % S)
      let v ← s.2.1.put i e.val
      let rp ← incr M s.2.2 (addM M e.row 1)
      .ok (ci, v, rp))
  unfold csrBuild
  rw [hl, hs]

theorem cooToCsr2_ents (M : Nat) (es : List ε) (rows columns : Nat) :
    (cooToCsr2 M es rows columns true).map Prod.fst = (cooToCsr2 M (ents es) rows columns true).map Prod.fst := by
  have hl : (ents es).length = es.length := by simp [ents]
  unfold cooToCsr2
  simp only [if_true, hl]
  have hs : (fun (i : Nat) (s : Buf Nat × Buf T × Buf Nat) => (do
      let e ← rd es i
      let di ← s.1.put i (NZ.toEnt e).col
      let dv ← s.2.1.put i (NZ.toEnt e).val
      let rp ← incr M s.2.2 (addM M (NZ.toEnt e).row 1)
      .ok (di, dv, rp) : C (Buf Nat × Buf T × Buf Nat))) = (fun i s => do
      let e ← rd (ents es) i
      let di ← s.1.put i (NZ.toEnt e).col
      let dv ← s.2.1.put i (NZ.toEnt e).val
      let rp ← incr M s.2.2 (addM M (NZ.toEnt e).row 1)
      .ok (di, dv, rp)) := funext fun i => funext fun s => rd_ents es i (fun e => do
        let di ← s.1.put i e.col
        let dv ← s.2.1.put i e.val
        let rp ← incr M s.2.2 (addM M e.row 1)
        .ok (di, dv, rp))
  rw [hs]
  cases (forLoop 0 es.length _ _ : C _) with
  | error e => rfl
  | ok s =>
    simp only [ok_bind]
    cases prefixSum M s.2.2 rows with
    | error e => rfl
    | ok rp =>
      simp only [ok_bind]
      cases rp.get rows with
      | error e => rfl
      | ok t =>
        simp only [ok_bind]
        cases (cassert (t == es.length) : C Unit) with
        | error e => rfl
        | ok u => rfl

/-- **C83** for CSR: the matrix depends only on the entries, and on their order only where several are at the same place; nor on the
type of the elements they come in. -/
theorem C83_csr (M rows columns : Nat) (es : List ε) (es' : List ε') (h : SamePlaces (ents es) (ents es')) :
    (cooToCsr M es rows columns).map Prod.fst = (cooToCsr M es' rows columns).map Prod.fst := by
  have key : ∀ {ε : Type} [NZ ε T] (es : List ε), (cooToCsr M es rows columns).map Prod.fst =
      csrBuild M M (ents (sortTriplets es)) rows columns := by
    intro ε _ es
    rw [← csrBuild_ents]
    unfold cooToCsr
    simp only [Bool.false_eq_true, if_false]
    cases csrBuild M M (sortTriplets es) rows columns <;> rfl
  rw [key, key, sortTriplets_samePlaces h]

/-- **C83** for CSR2. -/
theorem C83_csr2 (M rows columns : Nat) (es : List ε) (es' : List ε') (h : SamePlaces (ents es) (ents es')) :
    (cooToCsr2 M es rows columns).map Prod.fst = (cooToCsr2 M es' rows columns).map Prod.fst := by
  have key : ∀ {ε : Type} [NZ ε T] (es : List ε), cooToCsr2 M es rows columns = cooToCsr2 M (sortTriplets es) rows columns true := by
    intro ε _ es
    unfold cooToCsr2
    simp only [Bool.false_eq_true, if_false, if_true]
  rw [key, key, cooToCsr2_ents, cooToCsr2_ents M (sortTriplets es'), sortTriplets_samePlaces h]

/-- **C83** for CSWR. -/
theorem C83_cswr (M S rows columns width : Nat) (es : List ε) (es' : List ε') (h : SamePlaces (ents es) (ents es')) :
    (cooToCswr M S es rows columns width).map Prod.fst = (cooToCswr M S es' rows columns width).map Prod.fst := by
  have key : ∀ {ε ε' : Type} [NZ ε T] [NZ ε' T] (es : List ε) (es' : List ε'),
      ents (sortTripletsWide width es) = ents (sortTripletsWide width es') →
      (cooToCswr M S es rows columns width).map Prod.fst = (cooToCswr M S es' rows columns width).map Prod.fst := by
    intro ε ε' _ _ es es' h
    unfold cooToCswr
    cases cdiv (subM M (addM M rows width) 1) width with
    | error e => rfl
    | ok nw =>
      simp only [ok_bind]
      have hl : (sortTripletsWide width es).length = (sortTripletsWide width es').length := by
        have := congrArg List.length h
        simpa [ents] using this
      have hs : cswrFillStep M S width (sortTripletsWide width es) = cswrFillStep M S width (sortTripletsWide width es') := by
        have hall : ∀ {ε : Type} [NZ ε T] (l : List ε), cswrFillStep M S width l = cswrFillStep M S width (ents l) := by
          intro ε _ l
          funext i s
          unfold cswrFillStep
          exact rd_ents l i (fun e => do
            let wr ← cdiv e.row width
            let wp ← incr M s.1 (addM M wr 1)
            let lr ← cmod e.row width
            let r ← s.2.1.put i (lr % S)
            let c ← s.2.2.1.put i e.col
            let v ← s.2.2.2.put i e.val
            let ri ← r.get i
            cassert (decide (ri < width))
            .ok (wp, r, c, v))
        rw [hall, hall (sortTripletsWide width es'), h]
      rw [hl, hs]
      cases (forLoop 0 (sortTripletsWide width es').length _ _ : C _) with
      | error e => rfl
      | ok s =>
        simp only [ok_bind]
        cases prefixSum M s.1 nw with
        | error e => rfl
        | ok rp =>
          simp only [ok_bind]
          cases rp.get nw with
          | error e => rfl
          | ok t =>
            simp only [ok_bind]
            cases (cassert (t == (sortTripletsWide width es').length) : C Unit) with
            | error e => rfl
            | ok u => rfl
  exact key es es' (sortWide_samePlaces h)

end

/-! ### Blocked formats -/

/-- The element of an entry, with its block. -/
def keyed (K : Nat → Nat → Nat) (e : Ent T) : Element T := ⟨e.row, e.col, e.val, K e.row e.col⟩

theorem ltBlocks_tie (x y : Element T) (h1 : ltBlocks x y = false) (h2 : ltBlocks y x = false) : x.row = y.row ∧ x.col = y.col := by
  obtain ⟨r, c, v, u⟩ := x
  obtain ⟨r', c', v', u'⟩ := y
  simp only [ltBlocks, Bool.or_eq_false_iff, Bool.and_eq_false_iff, decide_eq_false_iff_not, beq_eq_false_iff_ne, ne_eq] at h1 h2 ⊢
  omega

theorem sortBlocks_samePlaces (K : Nat → Nat → Nat) {es es' : List (Element T)} (h : SamePlaces (ents es) (ents es')) :
    sortElementsBlocks (es.map (withKey K)) = sortElementsBlocks (es'.map (withKey K)) := by
  have hk : ∀ l : List (Element T), l.map (withKey K) = (ents l).map (keyed K) := by
    intro l
    unfold ents
    rw [List.map_map]
    rfl
  have hs : ∀ l : List (Ent T), sortElementsBlocks (l.map (keyed K)) =
      (l.mergeSort (leOf (fun a b => ltBlocks (keyed K a) (keyed K b)))).map (keyed K) := by
    intro l
    exact (map_pssSort (keyed K) ltBlocks l).symm
  rw [hk, hk, hs, hs]
  congr 1
  refine mergeSort_samePlaces ⟨?_, ?_⟩ h ?_ ?_
  · exact fun a b c => totalPre_blocks.trans (keyed K a) (keyed K b) (keyed K c)
  · exact fun a b => totalPre_blocks.total (keyed K a) (keyed K b)
  · intro a _ b _ h1 h2
    have h3 : ltBlocks (keyed K b) (keyed K a) = false := by simpa [leOf] using h1
    have h4 : ltBlocks (keyed K a) (keyed K b) = false := by simpa [leOf] using h2
    exact ltBlocks_tie (keyed K a) (keyed K b) h4 h3
  · intro a b h1 h2
    simp [leOf, ltBlocks, keyed, h1, h2]

section
variable {M rows columns : Nat} {es es' : List (Element T)} {offR : List Nat} {blockrows : Nat} {offC : List Nat} {blockcols : Nat}

theorem blockId_samePlaces (PR : Partition offR blockrows rows) (PC : Partition offC blockcols columns) (hR : blockrows < M)
    (hC : blockcols < M) (hK : blockrows * blockcols ≤ M) (hin : InRange (ents es) rows columns) (h : SamePlaces (ents es) (ents es'))
    {β : Type} (k : List (Element T) → C β) :
    (calculateBlockId M es offR blockrows offC blockcols >>= fun es => k (sortElementsBlocks es)) =
      (calculateBlockId M es' offR blockrows offC blockcols >>= fun es => k (sortElementsBlocks es)) := by
  have hin' : InRange (ents es') rows columns := fun e he => hin e (h.perm.mem_iff.2 he)
  rw [calculateBlockId_spec PR PC hR hC hK hin, calculateBlockId_spec PR PC hR hC hK hin', ok_bind, ok_bind, sortBlocks_samePlaces _ h]

end

section
variable (M workers rows columns : Nat) (es es' : List (Element T))
  (offR : List Nat) (blockrows : Nat) (offC : List Nat) (blockcols : Nat)
  (PR : Partition offR blockrows rows) (PC : Partition offC blockcols columns)
  (hR : blockrows < M) (hC : blockcols < M) (hK : blockrows * blockcols ≤ M)
  (hin : InRange (ents es) rows columns) (h : SamePlaces (ents es) (ents es'))
include PR PC hR hC hK hin h

/-- **C83** for CSBR: the matrix, and the array as the call leaves it. -/
theorem C83_csbr [Add T] [Mul T] :
    cooToCsbr M workers es rows columns offR blockrows offC blockcols =
      cooToCsbr M workers es' rows columns offR blockrows offC blockcols :=
  blockId_samePlaces PR PC hR hC hK hin h (fun es => do
    let A ← csbrBuild M workers es rows columns offR blockrows offC blockcols
    .ok (A, es))

omit workers in
/-- **C83** for CSBR2. -/
theorem C83_csbr2 :
    cooToCsbr2 M es rows columns offR blockrows offC blockcols = cooToCsbr2 M es' rows columns offR blockrows offC blockcols :=
  blockId_samePlaces PR PC hR hC hK hin h (fun es => do
    let A ← csbr2Build M es rows columns offR blockrows offC blockcols
    .ok (A, es))

/-- **C83** for CGBR, whatever the choice of block types. -/
theorem C83_cgbr [Add T] [Mul T] [Zero T] (S : Nat) (choose : Nat → Nat → Nat → BlockChoice) (heavy : Nat → Nat → List Nat → Bool) :
    cooToCgbr M S workers choose heavy es rows columns offR blockrows offC blockcols =
      cooToCgbr M S workers choose heavy es' rows columns offR blockrows offC blockcols := by
  unfold cooToCgbr
  rw [calculateBlockId_spec PR PC hR hC hK hin,
    calculateBlockId_spec PR PC hR hC hK (fun e he => hin e (h.perm.mem_iff.2 he)), ok_bind, ok_bind, sortBlocks_samePlaces _ h]

/-- **C83** for CGBR2, whatever the factory. -/
theorem C83_cgbr2 (factory : MakeBlock (BlockObj T) T) :
    cgbr2Create M workers factory es rows columns offR blockrows offC blockcols =
      cgbr2Create M workers factory es' rows columns offR blockrows offC blockcols := by
  unfold cgbr2Create
  rw [calculateBlockId_spec PR PC hR hC hK hin,
    calculateBlockId_spec PR PC hR hC hK (fun e he => hin e (h.perm.mem_iff.2 he)), ok_bind, ok_bind, sortBlocks_samePlaces _ h]

end

section
variable (M workers rows columns brSize bcSize : Nat) (es es' : List (Element T)) (h1 : 0 < brSize) (h2 : 0 < bcSize)
  (hr : 0 < rows) (hc : 0 < columns) (hrows : rows + 1 < M) (hcols : columns + 1 < M)
  (hgrid : max 1 (rows / brSize) * max 1 (columns / bcSize) ≤ M)
  (hin : InRange (ents es) rows columns) (h : SamePlaces (ents es) (ents es'))
include h1 h2 hr hc hrows hcols hgrid hin h

/-- **C83** for the four blocked formats when the block sizes are given as two numbers. -/
theorem C83_const [Add T] [Mul T] [Zero T] (S : Nat) (choose : Nat → Nat → Nat → BlockChoice)
    (heavy : Nat → Nat → List Nat → Bool) (choose2 : Nat → Nat → Nat → FactoryChoice) :
    cooToCsbrConst M workers es rows columns brSize bcSize = cooToCsbrConst M workers es' rows columns brSize bcSize ∧
      cooToCsbr2Const M es rows columns brSize bcSize = cooToCsbr2Const M es' rows columns brSize bcSize ∧
      cooToCgbrConst M S workers choose heavy es rows columns brSize bcSize =
        cooToCgbrConst M S workers choose heavy es' rows columns brSize bcSize ∧
      cooToCgbr2Const M S workers choose2 es rows columns brSize bcSize =
        cooToCgbr2Const M S workers choose2 es' rows columns brSize bcSize := by
  have hb : ∀ n s, constBlocks n s = max 1 (n / s) := by
    intro n s
    unfold constBlocks; generalize n / s = q; split <;> omega
  have hR : constBlocks rows brSize < M := Nat.lt_of_le_of_lt (constBlocks_le hr) (by omega)
  have hC : constBlocks columns bcSize < M := Nat.lt_of_le_of_lt (constBlocks_le hc) (by omega)
  have hK : constBlocks rows brSize * constBlocks columns bcSize ≤ M := by rw [hb, hb]; exact hgrid
  have PR := constOff_partition rows brSize
  have PC := constOff_partition columns bcSize
  refine ⟨?_, ?_, ?_, ?_⟩
  · unfold cooToCsbrConst
    rw [constOffsets_spec h1 hr hrows, ok_bind, constOffsets_spec h2 hc hcols, ok_bind]
    exact C83_csbr M workers rows columns es es' _ _ _ _ PR PC hR hC hK hin h
  · unfold cooToCsbr2Const
    rw [constOffsets_spec h1 hr hrows, ok_bind, constOffsets_spec h2 hc hcols, ok_bind]
    exact C83_csbr2 M rows columns es es' _ _ _ _ PR PC hR hC hK hin h
  · unfold cooToCgbrConst
    rw [constOffsets_spec h1 hr hrows, ok_bind, constOffsets_spec h2 hc hcols, ok_bind]
    exact C83_cgbr M workers rows columns es es' _ _ _ _ PR PC hR hC hK hin h S choose heavy
  · unfold cooToCgbr2Const
    rw [constOffsets_spec h1 hr hrows, ok_bind, constOffsets_spec h2 hc hcols, ok_bind]
    exact C83_cgbr2 M workers rows columns es es' _ _ _ _ PR PC hR hC hK hin h _

end

/-- **C83** for CSBR3. -/
theorem C83_csbr3 (M S rows columns bs : Nat) (es es' : List (Element T)) (hbs : 0 < bs)
    (hgrid : ((rows + bs - 1) / bs) * ((columns + bs - 1) / bs) ≤ M) (hrows : rows + bs < M) (hcols : columns + bs < M)
    (hin : InRange (ents es) rows columns) (h : SamePlaces (ents es) (ents es')) :
    cooToCsbr3 M S es rows columns bs = cooToCsbr3 M S es' rows columns bs := by
  have hin' : InRange (ents es') rows columns := fun e he => hin e (h.perm.mem_iff.2 he)
  have hid : ∀ l : List (Element T), InRange (ents l) rows columns →
      calculateBlockIdConst M l bs bs ((columns + bs - 1) / bs) =
        .ok (l.map (withKey fun r c => r / bs * ((columns + bs - 1) / bs) + c / bs)) := by
    intro l hl
    exact calculateBlockIdConst_spec hbs hbs (blockrows := (rows + bs - 1) / bs) hgrid (by
      intro e he
      have := hl _ (List.mem_map_of_mem (f := NZ.toEnt) he)
      exact ⟨ceil_lt hbs this.1, ceil_lt hbs this.2⟩)
  unfold cooToCsbr3
  rw [addM_eq hrows, addM_eq hcols, subM_eq (by omega) (by omega), subM_eq (by omega) (by omega), cdiv_ok (by omega),
    cdiv_ok (by omega)]
  simp only [ok_bind]
  rw [hid es hin, hid es' hin', ok_bind, ok_bind, sortBlocks_samePlaces _ h]

/-! ### Dense matrices and coordinate blocks -/

section
variable {ε ε' : Type} [NZ ε T] [NZ ε' T]

theorem lastAt_samePlaces [Zero T] {L L' : List (Ent T)} (h : SamePlaces L L') (i j : Nat) : lastAt L i j = lastAt L' i j := by
  have key : ∀ l : List (Ent T), l.reverse.find? (fun e => e.row == i && e.col == j) =
      (l.filter (fun e => e.row == i && e.col == j)).getLast? := by
    intro l
    rw [← List.head?_reverse, ← List.filter_reverse, List.head?_filter]
  unfold lastAt
  rw [key, key, h.places]

/-- **C83** for dense matrices: the last entry at each place counts, so the order of the others does not matter. -/
theorem C83_dense [Zero T] (M rows columns : Nat) (es : List ε) (es' : List ε') (hM : rows * columns < M)
    (hin : InRange (ents es) rows columns) (h : SamePlaces (ents es) (ents es')) :
    cooToDense M es rows columns = cooToDense M es' rows columns ∧ mkDense M es rows columns = mkDense M es' rows columns := by
  have hin' : InRange (ents es') rows columns := fun e he => hin e (h.perm.mem_iff.2 he)
  have hf : (fun p => lastAt (ents es) (p / columns) (p % columns)) = (fun p => lastAt (ents es') (p / columns) (p % columns)) :=
    funext fun p => lastAt_samePlaces h _ _
  unfold cooToDense mkDense
  rw [denseFill_spec M es rows columns hM hin, denseFill_spec M es' rows columns hM hin', hf]
  exact ⟨rfl, rfl⟩

/-- **C83** for coordinate blocks in Morton order, if the places have 16 bits. -/
theorem C83_coo (M S : Nat) (hM : 2 ^ 32 ≤ M) (es : List ε) (es' : List ε') (h : SamePlaces (ents es) (ents es'))
    (hs : ∀ e ∈ ents es, e.row < 2 ^ 16 ∧ e.col < 2 ^ 16) :
    (mkCoo M S es).map Prod.fst = (mkCoo M S es').map Prod.fst := by
  have key : ∀ {ε : Type} [NZ ε T] (es : List ε), (mkCoo M S es).map Prod.fst = cooFill S (ents (sortTripletsMorton M es)) := by
    intro ε _ es
    unfold mkCoo cooFill
    simp only
    rw [show (ents (sortTripletsMorton M es)).length = (sortTripletsMorton M es).length by simp [ents]]
    have hst : (fun (i : Nat) (s : Buf Nat × Buf Nat × Buf T) => (do
        let e ← rd (sortTripletsMorton M es) i
        let I ← s.1.put i ((NZ.toEnt e).row % S)
        let J ← s.2.1.put i ((NZ.toEnt e).col % S)
        let v ← s.2.2.put i (NZ.toEnt e).val
        .ok (I, J, v) : C (Buf Nat × Buf Nat × Buf T))) = (fun i s => do
        let e ← rd (ents (sortTripletsMorton M es)) i
        let I ← s.1.put i ((NZ.toEnt e).row % S)
        let J ← s.2.1.put i ((NZ.toEnt e).col % S)
        let v ← s.2.2.put i (NZ.toEnt e).val
        .ok (I, J, v)) := funext fun i => funext fun s => rd_ents (sortTripletsMorton M es) i (fun e => do
          let I ← s.1.put i (e.row % S)
          let J ← s.2.1.put i (e.col % S)
          let v ← s.2.2.put i e.val
          .ok (I, J, v))
    rw [hst]
    cases (forLoop 0 (sortTripletsMorton M es).length _ _ : C _) <;> rfl
  rw [key, key, sortMorton_samePlaces hM h hs]

end

end Gsb
