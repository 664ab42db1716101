import Verif.Proof.Gbr
import Verif.Proof.Coo
import Verif.Proof.Dense
/-
CGBR and CGBR2: what the constructors build multiplies correctly.
-/
namespace Gsb
variable {T : Type}

/-! ### Shape of the load-balancing partition, whatever the block weights -/

/-- Chunk boundaries of a block-row: from the first block to the last, never decreasing. -/
structure ChunksShape (start stop : Nat) (chunks : List Nat) : Prop where
  first : chunks.head? = some start
  last : chunks.getLast? = some stop
  size : 2 ≤ chunks.length
  mono : chunks.Pairwise (· ≤ ·)
  short : chunks.length ≤ stop - start + 2

theorem partitionBlockrow_shape {M workers nnz : Nat} (blockNnz : Nat → C Nat)
    (start stop : Nat) (hw : 0 < workers) (hle : start ≤ stop)
    (hb : ∀ b, start ≤ b → b < stop → ∃ n, blockNnz b = .ok n) :
    ∃ chunks, partitionBlockrow M workers nnz blockNnz start stop = .ok chunks ∧ ChunksShape start stop chunks := by
  unfold partitionBlockrow
  rw [cdiv_ok (by omega), ok_bind]
  generalize nnz / (2 * workers) = min
  have key := forLoop_inv (lo := start) (hi := stop)
    (f := fun b (s : Nat × List Nat) => do
      let n ← blockNnz b
      let nnz := addM M s.1 n
      if nnz > min ∧ b < subM M stop 1 then Except.ok (0, s.2 ++ [b]) else Except.ok (nnz, s.2))
    (s := ((0 : Nat), [start])) (fun b s => s.2.head? = some start ∧ s.2.Pairwise (· ≤ ·) ∧ (∀ c ∈ s.2, c ≤ b) ∧
      s.2 ≠ [] ∧ s.2.length ≤ b - start + 1) hle
    ⟨rfl, by simp, by simp, by simp, by simp⟩ (by
    intro b s h1 h2 ⟨i1, i2, i3, i4, i5⟩
    simp only
    obtain ⟨n, hn⟩ := hb b h1 h2
    rw [hn, ok_bind]
    split
    · refine ⟨_, rfl, by rw [List.head?_append, i1]; rfl, ?_, ?_, by simp, by simp; omega⟩
      · rw [List.pairwise_append]
        refine ⟨i2, by simp, ?_⟩
        intro a ha c hc
        simp at hc; subst hc; exact i3 a ha
      · intro c hc
        rcases List.mem_append.1 hc with h | h
        · have := i3 c h; omega
        · simp at h; omega
    · refine ⟨_, rfl, i1, i2, ?_, i4, by simp only; omega⟩
      intro c hc; have := i3 c hc; omega)
  obtain ⟨s, hs, i1, i2, i3, i4, i5⟩ := key
  refine ⟨s.2 ++ [stop], ?_, ?_⟩
  · have := hs
    simp only at this ⊢
    rw [this, ok_bind]
  · have hlen : 0 < s.2.length := List.length_pos_iff.2 i4
    refine ⟨by rw [List.head?_append, i1]; rfl, by simp, by simp; omega, ?_, by simp; omega⟩
    rw [List.pairwise_append]
    refine ⟨i2, by simp, ?_⟩
    intro a ha b hb'
    simp at hb'; subst hb'; exact i3 a ha

theorem partitionInit_shape {M workers : Nat} (A : BlockMat T) (p : Nat → Nat) (hw : 0 < workers)
    (hp : ∀ i, i ≤ A.blockrows → A.blockrowPtr.get i = .ok (p i))
    (hmono : ∀ i j, i ≤ j → p i ≤ p j)
    (hb : ∀ b, b < p A.blockrows → ∃ n, A.blockNnz b = .ok n) :
    ∃ P, partitionInit M workers A = .ok P ∧ P.length = A.blockrows ∧
      ∀ i, i < A.blockrows → ∃ c, P[i]? = some c ∧ ChunksShape (p i) (p (i + 1)) c := by
  unfold partitionInit
  obtain ⟨P, h1, h2⟩ := forLoop_inv (lo := 0) (hi := A.blockrows) (f := fun br l => do
      let lo ← A.blockrowPtr.get br
      let hi ← A.blockrowPtr.get (br + 1)
      let p ← partitionBlockrow M workers A.nnz A.blockNnz lo hi
      Except.ok (l ++ [p])) (s := ([] : List (List Nat)))
    (fun n l => l.length = n ∧ ∀ i, i < n → ∃ c, l[i]? = some c ∧ ChunksShape (p i) (p (i + 1)) c) (Nat.zero_le _)
    ⟨rfl, by intro i hi; omega⟩ (by
      intro br l _ hbr ⟨hl, hall⟩
      rw [hp br (by omega), ok_bind, hp (br + 1) (by omega), ok_bind]
      obtain ⟨c, hc1, hc2⟩ := partitionBlockrow_shape (M := M) (nnz := A.nnz) A.blockNnz (p br) (p (br + 1)) hw
        (hmono _ _ (by omega)) (fun b _ h => hb b (Nat.lt_of_lt_of_le h (hmono _ _ (by omega))))
      rw [hc1, ok_bind]
      refine ⟨_, rfl, by simp [hl], ?_⟩
      intro i hi
      by_cases h : i < br
      · obtain ⟨c', h3, h4⟩ := hall i h
        exact ⟨c', by rw [List.getElem?_append_left (by omega)]; exact h3, h4⟩
      · have : i = br := by omega
        subst this
        exact ⟨c, by rw [List.getElem?_append_right (by omega)]; simp [hl], hc2⟩)
  exact ⟨P, h1, h2.1, h2.2⟩

/-! ### Blocks -/

section
variable {β : Type}

/-- The block adds the product of the entries `L` to `y`. -/
def BlockMultiplies [AddMonoid T] [Mul T] (spmv : β → Buf T → Nat → Buf T → Nat → C (Buf T)) (rs cs : Nat)
    (L : List (Ent T)) (b : β) : Prop :=
  ∀ nx ny xo yo (x y : Nat → T), xo + cs ≤ nx → yo + rs ≤ ny →
    spmv b (Buf.full nx x) xo (Buf.full ny y) yo = .ok (Buf.full ny (spmvSum (shift yo xo L) x y))

/-- What a block constructor must do for block `k`. -/
structure MakesBlock [AddMonoid T] [Mul T] (make : MakeBlock β T) (spmv : β → Buf T → Nat → Buf T → Nat → C (Buf T))
    (nonzeros : β → C Nat) (rs cs : Nat) (g : List (Element T)) (r : Nat × β × List (Element T)) : Prop where
  ok : make rs cs g = .ok r
  type : r.1 < 6
  length : r.2.2.length = g.length
  mul : BlockMultiplies spmv rs cs (ents g) r.2.1
  nnz : ∃ n, nonzeros r.2.1 = .ok n

/-- A block constructor that is right on every admissible block: non-empty, in range, sorted by row. -/
def GoodMake [AddMonoid T] [Mul T] (M : Nat) (make : MakeBlock β T) (spmv : β → Buf T → Nat → Buf T → Nat → C (Buf T))
    (nonzeros : β → C Nat) (ok : Nat → Nat → List (Ent T) → Prop) : Prop :=
  ∀ rs cs (g : List (Element T)), g ≠ [] → g.length < M → rs + 1 < M → cs < M → InRange (ents g) rs cs →
    g.Pairwise (fun a b => a.row ≤ b.row) → ok rs cs (ents g) → ∃ r, MakesBlock make spmv nonzeros rs cs g r

variable {M : Nat} {offR offC : List Nat} {blockrows bc : Nat} {es : List (Element T)} {fR fC : Nat → Nat}

theorem runLoc_eq {k : Nat} (hk : k < (runs Element.block es).length) :
    runLoc fR fC bc es k = ((runs Element.block es)[k]).map (fun e => locElem (fR (e.block / bc)) (fC (e.block % bc)) e) := by
  simp [runLoc, hk]

theorem runLoc_length {k : Nat} (hk : k < (runs Element.block es).length) :
    (runLoc fR fC bc es k).length = runLen es k := by rw [runLoc_eq hk, runLen_eq es hk, List.length_map]

theorem blkRows_eq {k : Nat} (hk : k < (runs Element.block es).length) :
    blkRows fR bc es k = fR (runKey Element.block (runs Element.block es)[k] / bc + 1) -
      fR (runKey Element.block (runs Element.block es)[k] / bc) := by
  unfold blkRows
  rw [List.getElem?_eq_getElem (by simpa using hk), Option.getD_some, runKeys_getElem _ _ _ hk]

theorem blkCols_eq {k : Nat} (hk : k < (runs Element.block es).length) :
    blkCols fC bc es k = fC (runKey Element.block (runs Element.block es)[k] % bc + 1) -
      fC (runKey Element.block (runs Element.block es)[k] % bc) := by
  unfold blkCols
  rw [List.getElem?_eq_getElem (by simpa using hk), Option.getD_some, runKeys_getElem _ _ _ hk]

/-- The local elements of block `k` are admissible. -/
theorem runLoc_ok (H : BlkIn M fR fC blockrows bc es) {k : Nat} (hk : k < (runs Element.block es).length) :
    runLoc fR fC bc es k ≠ [] ∧ (runLoc fR fC bc es k).length < M ∧ blkRows fR bc es k + 1 < M ∧ blkCols fC bc es k < M ∧
    InRange (ents (runLoc fR fC bc es k)) (blkRows fR bc es k) (blkCols fC bc es k) ∧
    (runLoc fR fC bc es k).Pairwise (fun a b => a.row ≤ b.row) := by
  have hm := run_mem Element.block es k hk
  obtain ⟨hm1, hm2, hm3⟩ := hm
  have hlen := H.len
  obtain ⟨a, ha⟩ := List.exists_mem_of_ne_nil _ hm2
  have a1 := H.maxR a (hm1 a ha).1
  have a2 := H.maxC a (hm1 a ha).1
  rw [(hm1 a ha).2] at a1 a2
  rw [runLoc_eq hk, blkRows_eq hk, blkCols_eq hk]
  refine ⟨by simpa using hm2, by simp; omega, by omega, by omega, ?_, ?_⟩
  · intro e he
    simp only [ents, List.map_map, List.mem_map] at he
    obtain ⟨b, hb, rfl⟩ := he
    have h1 := H.inR b (hm1 b hb).1
    have h2 := H.inC b (hm1 b hb).1
    simp only [Function.comp, NZ.toEnt, locElem, ← (hm1 b hb).2]
    omega
  · rw [List.pairwise_map]
    refine (run_sorted H hk).imp_of_mem (fun ha hb h => ?_)
    simp only [locElem, (hm1 _ ha).2, (hm1 _ hb).2]
    omega

/-- Moved to its block's column, the local elements are the block's entries. -/
theorem shift_runLoc (H : BlkIn M fR fC blockrows bc es) {k : Nat} (hk : k < (runs Element.block es).length) (yo : Nat) :
    shift yo (fC (runKey Element.block (runs Element.block es)[k] % bc)) (ents (runLoc fR fC bc es k)) =
      shift yo 0 (blkEnts fR bc es k) := by
  have hm := (run_mem Element.block es k hk).1
  rw [blkEnts_eq fR bc es hk, runLoc_eq hk]
  unfold shift ents
  rw [List.map_map, List.map_map, List.map_map]
  refine List.map_congr_left (fun a ha => ?_)
  have h1 := H.inC a (hm a ha).1
  simp only [Function.comp, locElem, NZ.toEnt, ← (hm a ha).2, Nat.zero_add]
  rw [Nat.add_sub_cancel' h1.1]

variable [AddCommMonoid T] [Mul T]

theorem gbr_blockRep {make : MakeBlock β T} {spmv : β → Buf T → Nat → Buf T → Nat → C (Buf T)} {nonzeros : β → C Nat}
    {res : Results β T} {rows columns : Nat} (H : BlkIn M fR fC blockrows bc es)
    (hR : ∀ i, i ≤ blockrows → rd offR i = .ok (fR i)) (hC : ∀ i, i ≤ bc → rd offC i = .ok (fC i))
    (hmono : ∀ i, i < blockrows → fR i ≤ fR (i + 1))
    (hres : ∀ k, k < (runs Element.block es).length → MakesBlock make spmv nonzeros (blkRows fR bc es k) (blkCols fC bc es k)
      (runLoc fR fC bc es k) (res k))
    (nx : Nat) (hx : ∀ i, i ≤ bc → fC i ≤ nx) (x : Nat → T) :
    BlockRep ((gbrOf res offR offC rows columns blockrows bc es).toBlockMat spmv nonzeros)
      bc fR fC (runKeys Element.block es) nx x (blkEnts fR bc es) := by
  refine ⟨H.bcPos, runKeys_strict H, ?_, ?_, ?_, hR, fun i hi => hC i (Nat.le_of_lt hi), hmono, ?_, ?_⟩
  · intro κ hκ
    obtain ⟨e, he, rfl⟩ := (mem_runKeys Element.block es κ).1 hκ
    exact H.row e he
  · intro i hi
    have hi' : i ≤ blockrows := hi
    simp only [Gbr.toBlockMat, gbrOf]
    rw [Buf.get_full (by omega), if_pos hi']
  · intro k hk
    simp only [Gbr.toBlockMat, gbrOf]
    exact Buf.get_ok (by simpa using hk) (by simp only; rw [List.getElem?_eq_getElem hk]; rfl)
  · intro k hk ny yo y hy
    have hk' : k < (runs Element.block es).length := by simpa using hk
    have hm := (run_mem Element.block es k hk')
    obtain ⟨a, ha⟩ := List.exists_mem_of_ne_nil _ hm.2.1
    have hac := H.inC a (hm.1 a ha).1
    rw [(hm.1 a ha).2] at hac
    rw [runKeys_getElem _ _ _ hk'] at hy ⊢
    simp only [Gbr.toBlockMat, gbrOf]
    rw [Buf.get_ok (a := (res k).2.1) hk' (by simp [hk']), ok_bind]
    have hmul := (hres k hk').mul nx ny (fC (runKey Element.block (runs Element.block es)[k] % bc)) yo x y (by
      rw [blkCols_eq hk']
      have := hx (runKey Element.block (runs Element.block es)[k] % bc + 1) (Nat.mod_lt _ H.bcPos)
      omega) (by rw [blkRows_eq hk']; exact hy)
    rw [hmul, shift_runLoc H hk', visit_eq, spmvInOrder_eq_sum]
  · intro k hk e he
    have hk' : k < (runs Element.block es).length := by simpa using hk
    have hm := (run_mem Element.block es k hk').1
    rw [runKeys_getElem _ _ _ hk']
    rw [blkEnts_eq fR bc es hk'] at he
    obtain ⟨a, ha, rfl⟩ := List.mem_map.1 he
    have := H.inR a (hm a ha).1
    simp only [← (hm a ha).2]
    omega

theorem gbr_partition {make : MakeBlock β T} {spmv : β → Buf T → Nat → Buf T → Nat → C (Buf T)} {nonzeros : β → C Nat}
    {res : Results β T} {rows columns workers : Nat} (hw : 0 < workers)
    (hres : ∀ k, k < (runs Element.block es).length → MakesBlock make spmv nonzeros (blkRows fR bc es k) (blkCols fC bc es k)
      (runLoc fR fC bc es k) (res k)) :
    ∃ P, partitionInit M workers ((gbrOf res offR offC rows columns blockrows bc es).toBlockMat spmv nonzeros) = .ok P ∧
      P.length = blockrows ∧ ∀ i, i < blockrows → ∃ c, P[i]? = some c ∧
        ChunksShape (rowPtrOf bc (runKeys Element.block es) i) (rowPtrOf bc (runKeys Element.block es) (i + 1)) c := by
  refine partitionInit_shape (M := M) _ (rowPtrOf bc (runKeys Element.block es)) hw ?_ ?_ ?_
  · intro i hi
    have hi' : i ≤ blockrows := hi
    simp only [Gbr.toBlockMat, gbrOf]
    rw [Buf.get_full (by omega), if_pos hi']; rfl
  · intro i j h; exact rowPtrOf_mono _ _ h
  · intro k hk
    have hk' : k < (runs Element.block es).length := by
      have := rowPtrOf_le bc (runKeys Element.block es) blockrows
      rw [runKeys_length] at this
      exact Nat.lt_of_lt_of_le hk this
    obtain ⟨n, hn⟩ := (hres k hk').nnz
    refine ⟨n, ?_⟩
    simp only [Gbr.toBlockMat, gbrOf]
    rw [Buf.get_ok (a := (res k).2.1) hk' (by simp [hk']), ok_bind, hn]

omit [AddCommMonoid T] [Mul T] in
/-- Choose the results of all the blocks. -/
theorem choose_results {P : Nat → (Nat × β × List (Element T)) → Prop} {n : Nat} (hn : 0 < n) (h : ∀ k, k < n → ∃ r, P k r) :
    ∃ res : Results β T, ∀ k, k < n → P k (res k) := by
  obtain ⟨r0, -⟩ := h 0 hn
  have : ∀ k, ∃ r, k < n → P k r := by
    intro k
    by_cases hk : k < n
    · obtain ⟨r, hr⟩ := h k hk; exact ⟨r, fun _ => hr⟩
    · exact ⟨r0, fun h => absurd h hk⟩
  exact ⟨fun k => (this k).choose, fun k hk => (this k).choose_spec hk⟩

/-- Both SpMV paths on the constructed matrix. -/
theorem gbr_spmv {make : MakeBlock β T} {spmv : β → Buf T → Nat → Buf T → Nat → C (Buf T)} {nonzeros : β → C Nat}
    {res : Results β T} {rows columns : Nat} (H : BlkIn M fR fC blockrows bc es)
    (hR : ∀ i, i ≤ blockrows → rd offR i = .ok (fR i)) (hC : ∀ i, i ≤ bc → rd offC i = .ok (fC i))
    (hmono : ∀ i, i < blockrows → fR i ≤ fR (i + 1)) (hr : fR blockrows = rows) (hrM : rows < M)
    (hM : 2 * (es.length + 2) ≤ M)
    (hres : ∀ k, k < (runs Element.block es).length → MakesBlock make spmv nonzeros (blkRows fR bc es k) (blkCols fC bc es k)
      (runLoc fR fC bc es k) (res k))
    (nx ny : Nat) (hx : ∀ i, i ≤ bc → fC i ≤ nx) (hy : rows ≤ ny) (x y : Nat → T) (bal : Bool) (P : List (List Nat))
    (hP : bal = false → ∀ i, i < blockrows → ∃ c, P[i]? = some c ∧
        ChunksShape (rowPtrOf bc (runKeys Element.block es) i) (rowPtrOf bc (runKeys Element.block es) (i + 1)) c) :
    spmvBlocked M ((gbrOf res offR offC rows columns blockrows bc es).toBlockMat spmv nonzeros) bal P
      (Buf.full nx x) (Buf.full ny y) = .ok (Buf.full ny (spmvSum (ents es) x y)) := by
  have R := gbr_blockRep (rows := rows) (columns := columns) H hR hC hmono hres nx hx x
  have hbrM := H.brM
  rw [spmvBlocked_spec (M := M) R ny y (by show fR blockrows ≤ ny; omega) (by show blockrows < M; omega)
    (by show fR blockrows < M; omega) bal P (by
      intro hb bi hbi
      obtain ⟨c, c1, c2⟩ := hP hb bi hbi
      have h1 := rowPtrOf_le bc (runKeys Element.block es) (bi + 1)
      rw [runKeys_length] at h1
      have h2 := runs_length_le Element.block es
      have h3 := c2.short
      exact ⟨c, c1, by omega, c2.size, c2.mono, c2.first, c2.last⟩), allEnts_blkEnts H, visit_eq, spmvInOrder_eq_sum]

end

/-! ### The block constructors of the library -/

section
variable [NonUnitalNonAssocSemiring T]

theorem mkCoo_multiplies (M S : Nat) (g : List (Element T)) (rs cs : Nat) (hin : InRange (ents g) rs cs)
    (hS : ∀ e ∈ ents g, e.row < S ∧ e.col < S) :
    ∃ A, mkCoo M S g = .ok (A, sortTripletsMorton M g) ∧ A.nnz = g.length ∧
      BlockMultiplies Coo.spmv rs cs (ents g) A := by
  obtain ⟨A, h1, h2, -⟩ := mkCoo_spmv M S g hS (nx := cs) (ny := rs) (xo := 0) (yo := 0) (fun _ => (0 : T)) (fun _ => 0)
    (fun e he => by have := hin e he; omega) (fun e he => by have := hin e he; omega)
  refine ⟨A, h1, h2, ?_⟩
  intro nx ny xo yo x y hx hy
  obtain ⟨A', h3, -, h4⟩ := mkCoo_spmv M S g hS (nx := nx) (ny := ny) (xo := xo) (yo := yo) x y
    (fun e he => by have := hin e he; omega) (fun e he => by have := hin e he; omega)
  rw [h1] at h3
  have : A = A' := by injection h3 with h; injection h
  subst this
  rw [h4, spmvInOrder_eq_sum]
  congr 2
  exact spmvSum_perm ((ents_perm (sortMorton_perm M g)).map _) x y

theorem csr_multiplies (M S : Nat) (g : List (Element T)) (rs cs : Nat) (hlen : g.length < M) (hr : rs + 1 < M)
    (hin : InRange (ents g) rs cs) (hs : g.Pairwise (fun a b => a.row ≤ b.row)) (hS : ∀ e ∈ ents g, e.col < S) :
    csrBuild M S g rs cs = .ok (csrOf S g rs cs) ∧ BlockMultiplies Csr.spmv rs cs (ents g) (csrOf S g rs cs) ∧
      BlockMultiplies Csr.spmvSerial rs cs (ents g) (csrOf S g rs cs) ∧
      (csrOf S g rs cs).nonzeros = .ok g.length := by
  have hrow : ∀ e ∈ g, (NZ.toEnt e : Ent T).row < rs := fun e he => (hin _ (List.mem_map_of_mem (f := NZ.toEnt) he)).1
  have R := csrOf_rep S g rs cs hrow hs
  rw [truncCols_eq hS] at R
  refine ⟨csrBuild_spec M S g rs cs hlen hr hrow, ?_, ?_, ?_⟩
  · intro nx ny xo yo x y hx hy
    rw [← spmvInOrder_eq_sum]
    exact spmvCsr_spec R x y (fun e he => by have := hin e he; omega) hy
  · intro nx ny xo yo x y hx hy
    rw [← spmvInOrder_eq_sum]
    exact spmvCsrSerial_spec R x y (fun e he => by have := hin e he; omega) hy
  · unfold Csr.nonzeros
    simp only [csrOf]
    rw [Buf.get_full (by omega), if_pos (Nat.le_refl _), countP_lt_all g (fun e => (NZ.toEnt e : Ent T).row) rs hrow]

/-- When each block type may be used: COO and CSR need the indices to fit the small type, dense needs
its size to fit the index type and no coordinate twice. -/
def cgbrOk (M S : Nat) (choose : Nat → Nat → Nat → BlockChoice) (rs cs : Nat) (L : List (Ent T)) : Prop :=
  match choose rs cs L.length with
  | .coo => rs ≤ S ∧ cs ≤ S
  | .csr => cs ≤ S
  | .dense => rs * cs < M ∧ Distinct L

/-- `Coo_to_MatrixBlock` is right on every block of positive width, empty ones included. -/
theorem makes_cgbr (M S : Nat) (choose : Nat → Nat → Nat → BlockChoice) (serial : Bool) (rs cs : Nat)
    (g : List (Element T)) (hcs : 0 < cs) (hlen : g.length < M) (hr : rs + 1 < M) (hin : InRange (ents g) rs cs)
    (hs : g.Pairwise (fun a b => a.row ≤ b.row)) (hok : cgbrOk M S choose rs cs (ents g)) :
    ∃ r, MakesBlock (cooToMatrixBlock M S choose : MakeBlock (MatrixBlock T) T)
      (if serial then MatrixBlock.spmvSerial M else MatrixBlock.spmv M) (MatrixBlock.nonzeros M) rs cs g r := by
  have hl : (ents g).length = g.length := by simp [ents]
  unfold cgbrOk at hok
  rw [hl] at hok
  cases hch : choose rs cs g.length with
  | coo =>
    rw [hch] at hok
    have hS : ∀ e ∈ ents g, e.row < S ∧ e.col < S := fun e he => by have := hin e he; omega
    obtain ⟨A, h1, h2, h3⟩ := mkCoo_multiplies M S g rs cs hin hS
    refine ⟨(0, .coo A, sortTripletsMorton M g), ?_, by simp, (sortMorton_perm M g).length_eq, ?_, ⟨A.nnz, rfl⟩⟩
    · unfold cooToMatrixBlock; simp only [hch]; rw [cooToBlockCoo_spec M S g hS, h1, ok_bind]
    · cases serial <;> exact h3
  | csr =>
    rw [hch] at hok
    obtain ⟨h1, h2, h3, h4⟩ := csr_multiplies M S g rs cs hlen hr hin hs (fun e he => by
      have := hin e he; have : cs ≤ S := hok; omega)
    refine ⟨(1, .csr (csrOf S g rs cs), g), ?_, by simp, rfl, ?_, ⟨_, h4⟩⟩
    · unfold cooToMatrixBlock; simp only [hch]; unfold cooToBlockCsr; simp only [if_true]; rw [h1, ok_bind]; rfl
    · cases serial
      · exact h2
      · exact h3
  | dense =>
    rw [hch] at hok
    obtain ⟨hM, hd⟩ := hok
    refine ⟨(2, .dense ⟨Buf.full (rs * cs) (fun p => lastAt (ents g) (p / cs) (p % cs)), rs, cs⟩, g), ?_, by simp, rfl, ?_,
      ⟨_, rfl⟩⟩
    · unfold cooToMatrixBlock; simp only [hch]; unfold cooToDense
      simp only
      rw [denseFill_spec M g rs cs hM hin, mulM_eq hM, cassert_ok (by
        simp only [decide_eq_true_eq]
        exact Nat.le_mul_of_pos_right rs (by omega)), ok_bind, ok_bind, ok_bind]
    · intro nx ny xo yo x y hx hy
      have := dense_spmv_sum M g rs cs hM hin hd hx hy x y
      cases serial <;> exact this

theorem goodMake_cgbr (M S : Nat) (choose : Nat → Nat → Nat → BlockChoice) (serial : Bool) :
    GoodMake M (cooToMatrixBlock M S choose : MakeBlock (MatrixBlock T) T)
      (if serial then MatrixBlock.spmvSerial M else MatrixBlock.spmv M)
      (MatrixBlock.nonzeros M) (cgbrOk M S choose) := by
  intro rs cs g hne hlen hr hc hin hs hok
  obtain ⟨a, ha⟩ := List.exists_mem_of_ne_nil g hne
  have hacs := (hin _ (List.mem_map_of_mem (f := NZ.toEnt) ha)).2
  exact makes_cgbr M S choose serial rs cs g (by omega) hlen hr hin hs hok

/-- When each choice of the default factory may be used. -/
def factoryOk (M S : Nat) (choose : Nat → Nat → Nat → FactoryChoice) (rs cs : Nat) (L : List (Ent T)) : Prop :=
  match choose rs cs L.length with
  | .coo => rs ≤ S ∧ cs ≤ S
  | .csr => cs ≤ S
  | .csrPar => cs ≤ S
  | .dense => rs * cs < M ∧ Distinct L

theorem goodMake_factory (M S : Nat) (choose : Nat → Nat → Nat → FactoryChoice) :
    GoodMake M (factoryDefault M S choose : MakeBlock (BlockObj T) T) BlockObj.spmv (fun b => .ok b.nnz)
      (factoryOk M S choose) := by
  intro rs cs g hne hlen hr hc hin hs hok
  have hl : (ents g).length = g.length := by simp [ents]
  unfold factoryOk at hok
  rw [hl] at hok
  cases hch : choose rs cs g.length with
  | coo =>
    rw [hch] at hok
    obtain ⟨A, h1, h2, h3⟩ := mkCoo_multiplies M S g rs cs hin (fun e he => by have := hin e he; omega)
    refine ⟨(0, ⟨g.length, A.spmv, A.spmvP⟩, sortTripletsMorton M g), ?_, by simp, (sortMorton_perm M g).length_eq, h3, ⟨_, rfl⟩⟩
    unfold factoryDefault; simp only [hch]; rw [h1, ok_bind]
  | csr =>
    rw [hch] at hok
    obtain ⟨h1, h2, h3, h4⟩ := csr_multiplies M S g rs cs hlen hr hin hs (fun e he => by
      have := hin e he; have : cs ≤ S := hok; omega)
    refine ⟨(1, ⟨g.length, (csrOf S g rs cs).spmvSerial, (csrOf S g rs cs).spmvSerialP⟩, g), ?_, by simp, rfl, h3, ⟨_, rfl⟩⟩
    unfold factoryDefault; simp only [hch]; rw [h1, ok_bind]
  | csrPar =>
    rw [hch] at hok
    obtain ⟨h1, h2, h3, h4⟩ := csr_multiplies M S g rs cs hlen hr hin hs (fun e he => by
      have := hin e he; have : cs ≤ S := hok; omega)
    refine ⟨(4, ⟨g.length, (csrOf S g rs cs).spmv, (csrOf S g rs cs).spmvP⟩, g), ?_, by simp, rfl, h2, ⟨_, rfl⟩⟩
    unfold factoryDefault; simp only [hch]; rw [h1, ok_bind]
  | dense =>
    rw [hch] at hok
    obtain ⟨hM, hd⟩ := hok
    refine ⟨(2, ⟨g.length, Dense.spmv M ⟨Buf.full (rs * cs) (fun p => lastAt (ents g) (p / cs) (p % cs)), rs, cs⟩,
      Dense.spmvP M ⟨Buf.full (rs * cs) (fun p => lastAt (ents g) (p / cs) (p % cs)), rs, cs⟩⟩, g), ?_,
      by simp, rfl, ?_, ⟨_, rfl⟩⟩
    · unfold factoryDefault; simp only [hch]; unfold mkDense
      rw [denseFill_spec M g rs cs hM hin, ok_bind, ok_bind]
    · intro nx ny xo yo x y hx hy
      exact dense_spmv_sum M g rs cs hM hin hd hx hy x y

end

/-! ### Whole constructors -/

section
variable {β : Type} [AddCommMonoid T] [Mul T]

omit [AddCommMonoid T] [Mul T] in
/-- No coordinate occurs twice inside a block if none occurs twice in the matrix. -/
theorem runLoc_distinct {M : Nat} {blockrows bc : Nat} {es : List (Element T)} {fR fC : Nat → Nat}
    (H : BlkIn M fR fC blockrows bc es) (hd : Distinct (ents es)) {k : Nat} (hk : k < (runs Element.block es).length) :
    Distinct (ents (runLoc fR fC bc es k)) := by
  have hm := (run_mem Element.block es k hk).1
  have hsub : ((runs Element.block es)[k]).Sublist es := by
    conv => rhs; rw [← (runsOK Element.block es).flat]
    exact List.sublist_flatten_of_mem (List.getElem_mem hk)
  unfold Distinct ents at hd ⊢
  rw [List.pairwise_map] at hd
  rw [runLoc_eq hk, List.map_map, List.pairwise_map]
  refine (hd.sublist hsub).imp_of_mem (fun {a b} ha hb h => ?_)
  have a1 := H.inR a (hm a ha).1
  have a2 := H.inC a (hm a ha).1
  have b1 := H.inR b (hm b hb).1
  have b2 := H.inC b (hm b hb).1
  rw [(hm a ha).2] at a1 a2
  rw [(hm b hb).2] at b1 b2
  simp only [Function.comp, locElem, NZ.toEnt, (hm a ha).2, (hm b hb).2] at h ⊢
  omega

omit [AddCommMonoid T] [Mul T] in
theorem distinct_perm {l l' : List (Ent T)} (h : l.Perm l') (hd : Distinct l) : Distinct l' :=
  h.pairwise hd (fun {a b} h => by simpa [eq_comm] using h)

/-- The block constructor is right on every block of this matrix. -/
theorem gbr_results {M : Nat} {blockrows bc : Nat} {es : List (Element T)} {fR fC : Nat → Nat}
    {make : MakeBlock β T} {spmv : β → Buf T → Nat → Buf T → Nat → C (Buf T)}
    {nonzeros : β → C Nat} {ok : Nat → Nat → List (Ent T) → Prop} (G : GoodMake M make spmv nonzeros ok)
    (H : BlkIn M fR fC blockrows bc es)
    (hok : ∀ k, k < (runs Element.block es).length → ok (blkRows fR bc es k) (blkCols fC bc es k) (ents (runLoc fR fC bc es k))) :
    ∃ res : Results β T, ∀ k, k < (runs Element.block es).length →
      MakesBlock make spmv nonzeros (blkRows fR bc es k) (blkCols fC bc es k) (runLoc fR fC bc es k) (res k) := by
  refine choose_results (runs_length_pos _ H.ne) (fun k hk => ?_)
  obtain ⟨h1, h2, h3, h4, h5, h6⟩ := runLoc_ok H hk
  exact G _ _ _ h1 h2 h3 h4 h5 h6 (hok k hk)

omit [AddCommMonoid T] [Mul T] in
/-- A block's size is the size of some block-row and block-column. -/
theorem blk_sizes {M rows columns : Nat} {offR offC : List Nat} {blockrows bc : Nat} {es : List (Element T)}
    (H : BlkIn M (offF offR) (offF offC) blockrows bc es) (PR : Partition offR blockrows rows) (PC : Partition offC bc columns)
    {k : Nat} (hk : k < (runs Element.block es).length) :
    (∃ i lo hi, i < blockrows ∧ offR[i]? = some lo ∧ offR[i + 1]? = some hi ∧ blkRows (offF offR) bc es k = hi - lo) ∧
    (∃ i lo hi, i < bc ∧ offC[i]? = some lo ∧ offC[i + 1]? = some hi ∧ blkCols (offF offC) bc es k = hi - lo) := by
  obtain ⟨hm1, hm2, hm3⟩ := run_mem Element.block es k hk
  obtain ⟨a, ha⟩ := List.exists_mem_of_ne_nil _ hm2
  have h1 := H.row a (hm1 a ha).1
  have h2 := Nat.mod_lt (runKey Element.block (runs Element.block es)[k]) H.bcPos
  rw [(hm1 a ha).2] at h1
  have l1 := PR.len
  have l2 := PC.len
  rw [blkRows_eq hk, blkCols_eq hk]
  constructor
  · refine ⟨runKey Element.block (runs Element.block es)[k] / bc, _, _, h1, ?_, ?_, rfl⟩
    · rw [offF_eq (by omega)]; exact List.getElem?_eq_getElem _
    · rw [offF_eq (by omega)]; exact List.getElem?_eq_getElem _
  · refine ⟨runKey Element.block (runs Element.block es)[k] % bc, _, _, h2, ?_, ?_, rfl⟩
    · rw [offF_eq (by omega)]; exact List.getElem?_eq_getElem _
    · rw [offF_eq (by omega)]; exact List.getElem?_eq_getElem _

theorem isBalanced_ok {T : Type} [Add T] [Mul T] {M : Nat} {offR offC : List Nat} {rows columns blockrows bc : Nat} {es : List (Element T)}
    (heavy : Nat → Nat → List Nat → Bool) {res : Results (MatrixBlock T) T}
    (hn : ∀ k, k < (runs Element.block es).length → ∃ n, MatrixBlock.nonzeros M (res k).2.1 = .ok n) :
    ∃ b, isBalanced M heavy (gbrOf res offR offC rows columns blockrows bc es) = .ok b := by
  unfold isBalanced
  obtain ⟨b, hb, -⟩ := forLoop_inv (lo := 0) (hi := blockrows) (s := true)
    (f := fun i ok => if !ok then Except.ok false
      else do
        let lo ← (gbrOf res offR offC rows columns blockrows bc es).blockrowPtr.get i
        let hi ← (gbrOf res offR offC rows columns blockrows bc es).blockrowPtr.get (i + 1)
        let counts ← forLoop lo hi [] fun k l => do
          let _ ← (gbrOf res offR offC rows columns blockrows bc es).blockcolInd.get k
          let n ← (Cgbr.toBlockMat M (gbrOf res offR offC rows columns blockrows bc es)).blockNnz k
          Except.ok (l ++ [n])
        Except.ok (!heavy (gbrOf res offR offC rows columns blockrows bc es).nnz
          (gbrOf res offR offC rows columns blockrows bc es).blockrows counts)) (fun _ _ => True) (Nat.zero_le _) trivial (by
      intro i ok _ hi _
      cases ok with
      | false => exact ⟨false, by simp, trivial⟩
      | true =>
        simp only [Bool.not_true, Bool.false_eq_true, if_false]
        have g1 : (gbrOf res offR offC rows columns blockrows bc es).blockrowPtr.get i =
            .ok (rowPtrOf bc (runKeys Element.block es) i) := by
          simp only [gbrOf]; rw [Buf.get_full (by omega), if_pos (by omega)]; rfl
        have g2 : (gbrOf res offR offC rows columns blockrows bc es).blockrowPtr.get (i + 1) =
            .ok (rowPtrOf bc (runKeys Element.block es) (i + 1)) := by
          simp only [gbrOf]; rw [Buf.get_full (by omega), if_pos (by omega)]; rfl
        rw [g1, ok_bind, g2, ok_bind]
        obtain ⟨c, hc, -⟩ := forLoop_inv (lo := rowPtrOf bc (runKeys Element.block es) i)
          (hi := rowPtrOf bc (runKeys Element.block es) (i + 1)) (s := ([] : List Nat))
          (f := fun k l => do
            let _ ← (gbrOf res offR offC rows columns blockrows bc es).blockcolInd.get k
            let n ← (Cgbr.toBlockMat M (gbrOf res offR offC rows columns blockrows bc es)).blockNnz k
            Except.ok (l ++ [n])) (fun _ _ => True) (rowPtrOf_mono _ _ (Nat.le_succ i)) trivial (by
          intro k l h1 h2 _
          have hk : k < (runs Element.block es).length := by
            have := rowPtrOf_le bc (runKeys Element.block es) (i + 1)
            rw [runKeys_length] at this
            omega
          obtain ⟨n, hn⟩ := hn k hk
          refine ⟨l ++ [n], ?_, trivial⟩
          have c1 : (gbrOf res offR offC rows columns blockrows bc es).blockcolInd.get k =
              .ok ((runKeys Element.block es)[k]'(by simpa using hk) % bc) := by
            simp only [gbrOf]
            exact Buf.get_ok hk (by simp only; rw [List.getElem?_eq_getElem (by simpa using hk)]; rfl)
          rw [c1, ok_bind]
          simp only [Cgbr.toBlockMat, Gbr.toBlockMat, gbrOf]
          rw [Buf.get_ok (a := (res k).2.1) hk (by simp [hk]), ok_bind, hn, ok_bind])
        rw [hc, ok_bind]
        exact ⟨_, rfl, trivial⟩)
  exact ⟨b, hb⟩

end
end Gsb
