import Verif.Props.Tools3
import Verif.Props.Total
/-
Property C78: the tools and the library one after the other, from the files of coordinates and values to the product.
-/
namespace Gsb
variable {T D : Type}

/-! ### Helpers -/

theorem BlockOrder.unique {off : List Nat} {k n : Nat} (P : Partition off k n) {es : List (Ent T)} {l l' : List (Nat × Ent T)}
    (h : BlockOrder off k es l) (h' : BlockOrder off k es l') : l = l' := by
  have blk : ∀ l, BlockOrder off k es l → l = (l.map Prod.snd).map (fun e => (blockKey off k off k e.row e.col, e)) := by
    intro l h
    rw [List.map_map]
    refine (List.map_id l).symm.trans (List.map_congr_left fun r hr => ?_)
    obtain ⟨h1, h2, h3⟩ := h.inBlock r hr
    have hk0 : 0 < k := Nat.pos_of_ne_zero (by rintro rfl; simp at h3)
    have hk : r.1 / k < k := Nat.div_lt_of_lt_mul h3
    have hk' : r.1 % k < k := Nat.mod_lt _ hk0
    have key : ∀ b i, b < k → InBlockRange off b i → b = bidx off k i := by
      rintro b i hb ⟨lo, hi, e1, e2, a1, a2⟩
      have g1 := P.get_off (show b ≤ k by omega)
      have g2 := P.get_off (show b + 1 ≤ k by omega)
      rw [g1] at e1
      rw [g2] at e2
      cases e1
      cases e2
      have hin : i < n := Nat.lt_of_lt_of_le a2 (by
        have := P.mono (show b + 1 ≤ k by omega) (Nat.le_refl k)
        have := P.at_last
        omega)
      have b1 := P.bidx_lo hin
      have b2 := P.bidx_hi hin
      have b3 := P.bidx_lt hin
      rcases Nat.lt_trichotomy b (bidx off k i) with hlt | he | hlt
      · have := P.mono (show b + 1 ≤ bidx off k i from hlt) (by omega)
        omega
      · exact he
      · have := P.mono (show bidx off k i + 1 ≤ b from hlt) (by omega)
        omega
    have k1 := key _ _ hk h1
    have k2 := key _ _ hk' h2
    show r = (blockKey off k off k r.2.row r.2.col, r.2)
    refine Prod.ext ?_ rfl
    show r.1 = bidx off k r.2.row * k + bidx off k r.2.col
    rw [← k1, ← k2]
    exact (Nat.div_add_mod' r.1 k).symm
  let le : Ent T → Ent T → Bool := fun a b => decide (blockKey off k off k a.row a.col < blockKey off k off k b.row b.col ∨
    blockKey off k off k a.row a.col = blockKey off k off k b.row b.col ∧ (a.row < b.row ∨ a.row = b.row ∧ a.col ≤ b.col))
  have hle : TotalPre le := by
    refine ⟨fun a b c => ?_, fun a b => ?_⟩ <;> simp only [le, Bool.or_eq_true, decide_eq_true_eq] <;> omega
  have st : ∀ l, BlockOrder off k es l → IsStableSort le es (l.map Prod.snd) := by
    intro l h
    refine ⟨h.perm, ?_, fun a => ?_⟩
    · have hs := h.sorted
      rw [blk l h, List.pairwise_map] at hs
      refine hs.imp fun {a b} hab => ?_
      simpa [le] using hab
    · have : (fun b => le a b && le b a) = fun b : Ent T => b.row == a.row && b.col == a.col := by
        funext b
        rw [Bool.eq_iff_iff]
        simp only [le, Bool.and_eq_true, decide_eq_true_eq, beq_iff_eq]
        constructor
        · rintro ⟨h1, h2⟩; omega
        · rintro ⟨h1, h2⟩; rw [h1, h2]; omega
      rw [this]
      exact h.stable a.row a.col
  rw [blk l h, blk l' h', isStableSort_unique hle (st l h) (st l' h')]

/-- Renaming rows and columns: the summands of row `i` are those of row `f i` of the renamed matrix. -/
theorem RowTotals.of_relabel [Add T] [Mul T] {pad : T → Prop} {f g : Nat → Nat} {es : List (Ent T)} {rows columns rows' : Nat}
    {x x' y y' z' : Nat → T} (hin : InRange es rows columns) (hf : ∀ i j, i < rows → j < rows → f i = f j → i = j)
    (hlt : ∀ i, i < rows → f i < rows') (hx : Moved columns g x x') (hy : Moved rows f y y')
    (H : RowTotals pad (relabel f g es) rows' x' y' z') : RowTotals pad es rows x y (fun i => z' (f i)) := by
  intro i hi
  have h := H (f i) (hlt i hi)
  rw [hy i hi] at h
  have : products (relabel f g es) x' (f i) = products es x i := by
    unfold products
    rw [rowEntries_relabel (fun e he h => hf _ _ (hin e he).1 hi h), relabel, List.map_map]
    refine List.map_congr_left fun e he => ?_
    simp only [Function.comp]
    rw [hx e.col (hin e (List.mem_of_mem_filter he)).2]
  rwa [this] at h

theorem relabel_relabel (f g f' g' : Nat → Nat) (es : List (Ent T)) :
    relabel f g (relabel f' g' es) = relabel (fun i => f (f' i)) (fun i => g (g' i)) es := by
  unfold relabel
  rw [List.map_map]
  rfl

/-! ### From one-based files of doubles -/

/-- Three files that hold the entries `es` with indices that start at 1. -/
structure OneBased (cd : Codec D) (fs : FS) (frow fcol fval : String) (es : List (Ent D)) : Prop where
  row : fs frow = some (packed (idx 4) (es.map fun e => e.row + 1))
  col : fs fcol = some (packed (idx 4) (es.map fun e => e.col + 1))
  val : fs fval = some (packed cd (es.map Ent.val))
  fits : ∀ e ∈ es, e.row + 1 < 2 ^ 32 ∧ e.col + 1 < 2 ^ 32

/-- The entries with their values narrowed. -/
def narrowed (narrow : D → T) (es : List (Ent D)) : List (Ent T) := es.map fun e => ⟨e.row, e.col, narrow e.val⟩

/-- **C78**, import: `one2zero` on the two index files, then `double2float` on the file of values. -/
theorem C78_import {cd : Codec D} {cf : Codec T} (hcd : cd.Exact (fun _ => True)) (hcf : cf.Exact (fun _ => True)) (narrow : D → T)
    (d : Disk) (fs : FS) (frow fcol fval : String) (es : List (Ent D)) (F : OneBased cd fs frow fcol fval es)
    (hrow : frow.utf8ByteSize < 121) (hcol : fcol.utf8ByteSize < 121) (hval : fval.utf8ByteSize < 121)
    (hn1 : frow ≠ fcol ++ ".zero") (hn2 : fcol ≠ frow ++ ".zero") (hn3 : fval ≠ frow ++ ".zero") (hn4 : fval ≠ fcol ++ ".zero")
    (hn5 : frow ++ ".zero" ≠ fval ++ ".float") (hn6 : fcol ++ ".zero" ≠ fval ++ ".float")
    (hlen : es.length < 2 ^ 32)
    (hd1 : d.Works (es.length * 4) (frow ++ ".zero")) (hd2 : d.Works (es.length * 4) (fcol ++ ".zero"))
    (hd3 : d.Works (es.length * cf.size) (fval ++ ".float")) :
    ∃ fs1 fs2, one2zero d fs [frow, fcol] = .ok (0, fs1) ∧ double2float cd cf narrow d fs1 [fval] = .ok (0, fs2) ∧
      Files3 4 cf fs2 (frow ++ ".zero") (fcol ++ ".zero") (fval ++ ".float") (narrowed narrow es) ∧
      ∀ m, m ≠ frow ++ ".zero" → m ≠ fcol ++ ".zero" → m ≠ fval ++ ".float" → fs2 m = fs m := by
  have ir : ∀ g : Ent D → Nat, (∀ e ∈ es, g e < 2 ^ 32) → items (idx 4) (packed (idx 4) (es.map g)) = es.map g := by
    intro g hg
    have := items_packed idx4_exact (es.map g) (by
      intro a ha
      obtain ⟨e, he, rfl⟩ := List.mem_map.1 ha
      exact hg e he) [] (by decide)
    rwa [List.append_nil] at this
  have r1 := ir (fun e => e.row + 1) fun e he => (F.fits e he).1
  have r2 := ir (fun e => e.col + 1) fun e he => (F.fits e he).2
  have r3 : items cd (packed cd (es.map Ent.val)) = es.map Ent.val := by
    have := items_packed hcd (es.map Ent.val) (fun _ _ => trivial) [] (by simpa using hcd.pos)
    rwa [List.append_nil] at this
  have happ : ∀ a b : String, b.length ≠ 0 → a ≠ a ++ b := by
    intro a b hb h
    have := congrArg String.length h
    rw [String.length_append] at this
    omega
  have z0 : (".zero" : String).length ≠ 0 := by decide
  have f0 : (".float" : String).length ≠ 0 := by decide
  let data : String → Bytes := fun m => (fs m).getD []
  have dr : data frow = packed (idx 4) (es.map fun e => e.row + 1) := by simp [data, F.row]
  have dc : data fcol = packed (idx 4) (es.map fun e => e.col + 1) := by simp [data, F.col]
  have lr : ∀ g : Ent D → Nat, (packed (idx 4) (es.map g)).length = es.length * 4 := fun g => by
    rw [packed_length idx4_exact, List.length_map]; rfl
  obtain ⟨fs1, a1, a2, a3⟩ := C52_converts d fs [frow, fcol] (by simp) data
    (by intro n hn; simp only [List.mem_cons, List.not_mem_nil, or_false] at hn; rcases hn with rfl | rfl <;> assumption)
    (by
      intro n hn
      simp only [List.mem_cons, List.not_mem_nil, or_false] at hn ⊢
      rcases hn with rfl | rfl
      · exact fun h => h.elim (fun h => happ _ _ z0 h.symm) (fun h => hn2 h.symm)
      · exact fun h => h.elim (fun h => hn1 h.symm) (fun h => happ _ _ z0 h.symm))
    (by
      intro n hn
      simp only [List.mem_cons, List.not_mem_nil, or_false] at hn
      rcases hn with rfl | rfl
      · rw [F.row, dr]
      · rw [F.col, dc])
    (by
      intro n hn
      simp only [List.mem_cons, List.not_mem_nil, or_false] at hn
      rcases hn with rfl | rfl
      · rw [dr, r1]; simpa using hlen
      · rw [dc, r2]; simpa using hlen)
    (by
      intro n hn v hv
      simp only [List.mem_cons, List.not_mem_nil, or_false] at hn
      rcases hn with rfl | rfl
      · rw [dr, r1] at hv; obtain ⟨e, -, rfl⟩ := List.mem_map.1 hv; omega
      · rw [dc, r2] at hv; obtain ⟨e, -, rfl⟩ := List.mem_map.1 hv; omega)
    (by
      intro n hn
      simp only [List.mem_cons, List.not_mem_nil, or_false] at hn
      rcases hn with rfl | rfl
      · rw [dr, lr]; exact hd1
      · rw [dc, lr]; exact hd2)
  have sub : ∀ g : Ent D → Nat, (es.map fun e => g e + 1).map (· - 1) = es.map g := by
    intro g
    rw [List.map_map]
    exact List.map_congr_left fun e _ => by simp
  have v1 : fs1 fval = some (packed cd (es.map Ent.val)) := by
    rw [a3 fval (by
      intro n hn
      simp only [List.mem_cons, List.not_mem_nil, or_false] at hn
      rcases hn with rfl | rfl <;> assumption), F.val]
  obtain ⟨fs2, b1, b2, b3⟩ := C60_converts hcd.pos hcf narrow d fs1 [fval] (by simp) (fun _ => packed cd (es.map Ent.val))
    (by simpa using hval) (by simpa using fun h => happ _ _ f0 h.symm) (by simpa using v1)
    (by
      intro n hn
      simp only [List.mem_cons, List.not_mem_nil, or_false] at hn
      subst hn
      rw [r3, List.length_map]; exact hd3)
  refine ⟨fs1, fs2, a1, b1, ⟨?_, ?_, ?_⟩, ?_⟩
  · rw [b3 _ (by simpa using hn5), a2 frow (by simp), dr, r1, sub, narrowed, List.map_map]; rfl
  · rw [b3 _ (by simpa using hn6), a2 fcol (by simp), dc, r2, sub, narrowed, List.map_map]; rfl
  · rw [b2 fval (by simp), r3, narrowed, List.map_map, List.map_map]; rfl
  · intro m m1 m2 m3
    rw [b3 m (by simpa using m3), a3 m (by
      intro n hn
      simp only [List.mem_cons, List.not_mem_nil, or_false] at hn
      rcases hn with rfl | rfl <;> assumption)]

/-- **C78**, the `permute` tool: the two files it writes, with the old file of values, hold the matrix with its indices renamed. -/
theorem C78_permute {cv : Codec T} (malloc0 : Bool) (d : Disk) (fs : FS) (frow fcol fval fperm : String) (es : List (Ent T)) (p : List Nat)
    (F : Files3 4 cv fs frow fcol fval es) (hp : fs fperm = some (packed (idx 4) p)) (hp2 : ∀ i ∈ p, i < 2 ^ 32)
    (hr1 : frow.utf8ByteSize < 118) (hc1 : fcol.utf8ByteSize < 118) (hrc : frow ≠ fcol ++ ".permuted")
    (hcr : frow ++ ".permuted" ≠ fval) (hcv : fcol ++ ".permuted" ≠ fval)
    (hne : es ≠ [] ∨ malloc0 = true) (hlen : es.length < 2 ^ 32)
    (hin : InRange es p.length p.length) (hp3 : p.length ≤ 2 ^ 32)
    (hdr : d.Works (es.length * 4) (frow ++ ".permuted")) (hdc : d.Works (es.length * 4) (fcol ++ ".permuted")) :
    ∃ fs' es', permuteTool false malloc0 d fs [frow, fcol, fperm] = .ok (0, fs') ∧ Permuted p es es' ∧
      Files3 4 cv fs' (frow ++ ".permuted") (fcol ++ ".permuted") fval es' ∧
      ∀ m, m ≠ frow ++ ".permuted" → m ≠ fcol ++ ".permuted" → fs' m = fs m := by
  have ir : ∀ l : List Nat, (∀ a ∈ l, a < 2 ^ 32) → items (idx 4) (packed (idx 4) l) = l := by
    intro l hl
    have := items_packed idx4_exact l hl [] (by decide)
    rwa [List.append_nil] at this
  have r1 := ir (es.map Ent.row) (by
    intro a ha; obtain ⟨e, he, rfl⟩ := List.mem_map.1 ha; have := hin e he; omega)
  have r2 := ir (es.map Ent.col) (by
    intro a ha; obtain ⟨e, he, rfl⟩ := List.mem_map.1 ha; have := hin e he; omega)
  have r3 := ir p hp2
  have lr : ∀ g : Ent T → Nat, (packed (idx 4) (es.map g)).length = es.length * 4 := fun g => by
    rw [packed_length idx4_exact, List.length_map]; rfl
  obtain ⟨fs', I', J', a1, a2, a3, a4, a5, a6⟩ := C61_permutes malloc0 d fs frow fcol fperm _ _ _ F.row F.col hp hr1 hc1 hrc
    (by
      rw [r1, r2, r3]
      refine hne.imp (fun h => ?_) id
      obtain ⟨e, he⟩ := List.exists_mem_of_ne_nil es h
      have := hin e he
      refine ⟨by simpa using h, by simpa using h, ?_⟩
      rintro rfl
      simp at this)
    (by rw [r1]; simpa using hlen) (by rw [r2]; simpa using hlen)
    (by rw [r1, r3]; intro a ha; obtain ⟨e, he, rfl⟩ := List.mem_map.1 ha; exact (hin e he).1)
    (by rw [r2, r3]; intro a ha; obtain ⟨e, he, rfl⟩ := List.mem_map.1 ha; exact (hin e he).2)
    (by rw [lr]; exact hdr) (by rw [lr]; exact hdc)
  rw [r1, r3] at a4
  rw [r2, r3] at a5
  obtain ⟨es', e1, e2, e3, e4⟩ : ∃ es' : List (Ent T), Permuted p es es' ∧ es'.map Ent.row = I' ∧ es'.map Ent.col = J' ∧
      es'.map Ent.val = es.map Ent.val := by
    clear a1 a2 a3 a6 lr r1 r2 hdr hdc hne hlen hin F
    induction es generalizing I' J' with
    | nil =>
      simp only [List.map_nil] at a4 a5
      cases a4
      cases a5
      exact ⟨[], .nil, rfl, rfl, rfl⟩
    | cons e es ih =>
      rw [List.map_cons] at a4 a5
      cases a4 with
      | cons h4 t4 =>
        cases a5 with
        | cons h5 t5 =>
          obtain ⟨es', e1, e2, e3, e4⟩ := ih _ _ t4 t5
          exact ⟨⟨_, _, e.val⟩ :: es', .cons ⟨h4, h5, rfl⟩ e1, by rw [List.map_cons, e2], by rw [List.map_cons, e3],
            by rw [List.map_cons, List.map_cons, e4]⟩
  refine ⟨fs', es', a1, e1, ⟨by rw [e2]; exact a2, by rw [e3]; exact a3, ?_⟩, a6⟩
  rw [e4, a6 fval (fun h => hcr h.symm) (fun h => hcv h.symm)]
  exact F.val

/-! ### From the files of a matrix to the product -/

/-- **C78**, prepare: after `prepare` the file `<out>.col.exp<N>` is read back as a square matrix in which index `i` of the input is
index `ψ i` (moved by the permutation, then to the slot of its block), one to one.  Converted to CSR and multiplied, under every
schedule, by a vector that holds `x i` at `ψ i`, it adds to a vector that holds `y i` at `ψ i`: at `ψ i` there is then a sum of `y i`
and of the products of row `i` of the input, each exactly once. -/
theorem C78_prepare {cv : Codec T} [Add T] [Mul T] (hv : cv.Exact (fun _ => True)) {decimal : Nat → String} (malloc0 : Bool) {d : Disk}
    {fs : FS} (gr gc : Nat) {frow fcol fval fperm fsizes out : String} {p sizes : List Nat} {k N : Nat} {es es' : List (Ent T)}
    (R : PrepareRun cv decimal d fs frow fcol fval fperm fsizes out p sizes k N es es')
    (hout : ¬ tmpDir.toList <+: out.toList) (hp : IsPerm sizes.sum (fun i => p.getD i 0)) (hpl : p.length = sizes.sum) :
    ∃ fs' A E B E' ψ, prepareTool cv decimal malloc0 d fs gr gc [frow, fcol, fval, fperm, fsizes, out] = .ok (0, fs') ∧
      readBinCoo 4 cv fs' (out ++ (".col.exp" ++ decimal N)) = .ok (0, A) ∧
      A.rows = some (sizes.length * N) ∧ A.columns = some (sizes.length * N) ∧ A.ents = .ok E ∧
      (∀ i, i < sizes.sum → ψ i < sizes.length * N ∧ ∃ j, At p i j ∧ ExpandsTo (sizeToOffset (2 ^ 32) sizes) N j (ψ i)) ∧
      (∀ i i', i < sizes.sum → i' < sizes.sum → ψ i = ψ i' → i = i') ∧
      cooToCsr (2 ^ 32) E (sizes.length * N) (sizes.length * N) = .ok (B, E') ∧
      ∀ x y x' y' : Nat → T, Moved sizes.sum ψ x x' → Moved sizes.sum ψ y y' →
        ∃ z, EverySchedule (fun Y => B.spmvP (Buf.full (sizes.length * N) x') 0 Y 0) (sizes.length * N) y' z ∧
          RowTotals noPad es sizes.sum x y (fun i => z (ψ i)) := by
  obtain ⟨fs', esR, esC, l, φ, a1, -, -, -, -, a6, -, a8, a9, -, -⟩ := C63_prepare hv malloc0 gr gc R hout
  have F := R.sizesFit
  have hN := R.slotSize
  have hslots := F.slots_le
  rw [← hN] at hslots
  have hord : ∀ i j, i < sizes.sum → j < sizes.sum → (φ i = φ j → i = j) ∧ φ i < sizes.length * N := by
    intro i j hi hj
    have B := F.at_most
    rw [← hN] at B
    have := C34_order _ _ _ N i j _ _ F.partition B (a8 i hi) (a8 j hj)
    exact ⟨fun h => (this.2.1).2 h, this.2.2⟩
  obtain ⟨q1, q2⟩ := permuted_relabel R.permuted
  have hin : InRange es sizes.sum sizes.sum := by
    intro e he
    obtain ⟨h1, h2⟩ := q2 e he
    unfold At at h1 h2
    obtain ⟨h1, -⟩ := List.getElem?_eq_some_iff.1 h1
    obtain ⟨h2, -⟩ := List.getElem?_eq_some_iff.1 h2
    omega
  have hinC : InRange esC sizes.sum sizes.sum := fun e he => R.inside e (a6.1.mem_iff.1 he)
  have hlenC : esC.length = es.length := by rw [a6.1.length_eq, q1, relabel, List.length_map]
  have hnnz : es.length < 2 ^ 32 := by have := R.words; omega
  have hinE : InRange (relabel φ φ esC) (sizes.length * N) (sizes.length * N) := by
    intro e he
    obtain ⟨a, ha, rfl⟩ := List.mem_map.1 he
    have := hinC a ha
    exact ⟨(hord _ _ this.1 this.1).2, (hord _ _ this.2 this.2).2⟩
  have hread := readBinCoo_file (w := 4) (by decide) hv fs' (out ++ (".col.exp" ++ decimal N)) (sizes.length * N) (sizes.length * N)
    (relabel φ φ esC) (show _ < 2 ^ 32 by omega) (show _ < 2 ^ 32 by omega) (by rw [relabel, List.length_map, hlenC]; exact hnnz)
    (fun e he => by
      have := hinE e he
      exact ⟨show _ < 2 ^ 32 by omega, show _ < 2 ^ 32 by omega⟩) [] (by rw [List.append_nil]; exact a9)
  have hE : (ents (relabel φ φ esC)) = relabel φ φ esC := ents_ent _
  have hcsr := fun x y => C16_csr (T := T) (2 ^ 32) (sizes.length * N) (sizes.length * N) (relabel φ φ esC)
    (by rw [relabel, List.length_map, hlenC]; exact hnnz) (by omega) (by omega) (by rw [hE]; exact hinE) (sizes.length * N) (Nat.le_refl _)
    x y
  obtain ⟨e0, -⟩ := List.exists_mem_of_ne_nil es R.nonempty
  obtain ⟨B, E', b1, -⟩ := hcsr (fun _ => e0.val) (fun _ => e0.val)
  have hψ : ∀ i, i < sizes.sum → p.getD i 0 < sizes.sum := hp.lt
  refine ⟨fs', _, relabel φ φ esC, B, E', fun i => φ (p.getD i 0), a1, hread, rfl, rfl, ?_, ?_, ?_, b1, ?_⟩
  · have := mapM_ents (relabel φ φ esC) (some (sizes.length * N)) (some (sizes.length * N))
    exact this
  · intro i hi
    refine ⟨(hord _ _ (hψ i hi) (hψ i hi)).2, p.getD i 0, ?_, a8 _ (hψ i hi)⟩
    unfold At
    rw [List.getD_eq_getElem _ _ (by omega), List.getElem?_eq_getElem (by omega)]
  · intro i i' hi hi' h
    exact hp.inj i i' hi hi' ((hord _ _ (hψ i hi) (hψ i' hi')).1 h)
  · intro x y x' y' hx hy
    obtain ⟨B', E'', b1', b2⟩ := hcsr x' y'
    rw [b1] at b1'
    cases b1'
    refine ⟨_, b2, ?_⟩
    rw [hE]
    have t1 := rowTotals_exact (pad := noPad) (relabel φ φ esC) (sizes.length * N) x' y'
    have hperm : (relabel φ φ esC).Perm (relabel (fun i => φ (p.getD i 0)) (fun i => φ (p.getD i 0)) es) := by
      rw [← relabel_relabel φ φ (fun i => p.getD i 0) (fun i => p.getD i 0) es, ← q1]
      exact a6.1.map _
    exact RowTotals.of_relabel hin (fun i j hi hj h => hp.inj i j hi hj ((hord _ _ (hψ i hi) (hψ j hj)).1 h))
      (fun i hi => (hord _ _ (hψ i hi) (hψ i hi)).2) hx hy (t1.perm hperm)

/-- **C78**, end to end: one-based files of coordinates and values in a wide format, a permutation file and a file of block sizes;
`one2zero`, `double2float`, `prepare`, reading the expanded file, CSR, and multiplication under every schedule.  At `ψ i` there is a
sum of `y i` and of the products of row `i` of the input, with every value narrowed, each exactly once. -/
theorem C78_end_to_end {cd : Codec D} {cf : Codec T} [Add T] [Mul T] (hcd : cd.Exact (fun _ => True)) (hcf : cf.Exact (fun _ => True))
    (narrow : D → T) {decimal : Nat → String} (malloc0 : Bool) {d : Disk} {fs : FS} (gr gc : Nat)
    {frow fcol fval fperm fsizes out : String} {p sizes : List Nat} {k N : Nat} {es : List (Ent D)} {es' : List (Ent T)}
    (F : OneBased cd fs frow fcol fval es)
    (hrow : frow.utf8ByteSize < 121) (hcol : fcol.utf8ByteSize < 121) (hval : fval.utf8ByteSize < 121)
    (hn1 : frow ≠ fcol ++ ".zero") (hn2 : fcol ≠ frow ++ ".zero") (hn3 : fval ≠ frow ++ ".zero") (hn4 : fval ≠ fcol ++ ".zero")
    (hn5 : frow ++ ".zero" ≠ fval ++ ".float") (hn6 : fcol ++ ".zero" ≠ fval ++ ".float")
    (hd1 : d.Works (es.length * 4) (frow ++ ".zero")) (hd2 : d.Works (es.length * 4) (fcol ++ ".zero"))
    (hd3 : d.Works (es.length * cf.size) (fval ++ ".float"))
    (hfp : fs fperm = some (packed (idx 4) p)) (hfs : fs fsizes = some (packed (idx 4) sizes))
    (hnew : ∀ f, f = fperm ∨ f = fsizes → f ≠ frow ++ ".zero" ∧ f ≠ fcol ++ ".zero" ∧ f ≠ fval ++ ".float")
    (R : ∀ fs2, Files3 4 cf fs2 (frow ++ ".zero") (fcol ++ ".zero") (fval ++ ".float") (narrowed narrow es) →
      fs2 fperm = some (packed (idx 4) p) → fs2 fsizes = some (packed (idx 4) sizes) →
      PrepareRun cf decimal d fs2 (frow ++ ".zero") (fcol ++ ".zero") (fval ++ ".float") fperm fsizes out p sizes k N (narrowed narrow es) es')
    (hlen : es.length < 2 ^ 32)
    (hout : ¬ tmpDir.toList <+: out.toList) (hp : IsPerm sizes.sum (fun i => p.getD i 0)) (hpl : p.length = sizes.sum) :
    ∃ fs1 fs2 fs3 A E B E' ψ, one2zero d fs [frow, fcol] = .ok (0, fs1) ∧ double2float cd cf narrow d fs1 [fval] = .ok (0, fs2) ∧
      prepareTool cf decimal malloc0 d fs2 gr gc [frow ++ ".zero", fcol ++ ".zero", fval ++ ".float", fperm, fsizes, out] = .ok (0, fs3) ∧
      readBinCoo 4 cf fs3 (out ++ (".col.exp" ++ decimal N)) = .ok (0, A) ∧
      A.rows = some (sizes.length * N) ∧ A.columns = some (sizes.length * N) ∧ A.ents = .ok E ∧
      (∀ i, i < sizes.sum → ψ i < sizes.length * N ∧ ∃ j, At p i j ∧ ExpandsTo (sizeToOffset (2 ^ 32) sizes) N j (ψ i)) ∧
      (∀ i i', i < sizes.sum → i' < sizes.sum → ψ i = ψ i' → i = i') ∧
      cooToCsr (2 ^ 32) E (sizes.length * N) (sizes.length * N) = .ok (B, E') ∧
      ∀ x y x' y' : Nat → T, Moved sizes.sum ψ x x' → Moved sizes.sum ψ y y' →
        ∃ z, EverySchedule (fun Y => B.spmvP (Buf.full (sizes.length * N) x') 0 Y 0) (sizes.length * N) y' z ∧
          RowTotals noPad (es.map fun e => ⟨e.row, e.col, narrow e.val⟩) sizes.sum x y (fun i => z (ψ i)) := by
  obtain ⟨fs1, fs2, a1, a2, a3, a4⟩ := C78_import hcd hcf narrow d fs frow fcol fval es F hrow hcol hval hn1 hn2 hn3 hn4 hn5 hn6 hlen hd1 hd2 hd3
  have n1 := hnew fperm (.inl rfl)
  have n2 := hnew fsizes (.inr rfl)
  obtain ⟨fs3, A, E, B, E', ψ, b⟩ := C78_prepare hcf malloc0 gr gc
    (R fs2 a3 (by rw [a4 _ n1.1 n1.2.1 n1.2.2, hfp]) (by rw [a4 _ n2.1 n2.2.1 n2.2.2, hfs])) hout hp hpl
  exact ⟨fs1, fs2, fs3, A, E, B, E', ψ, a1, a2, b⟩

/-! ### From a blocked file to the product -/

/-- A file of blocks with the right dimensions is read as a matrix whose product is that of the entries. -/
theorem readBlocked_of_blockOrder {cv : Codec T} [Add T] [Mul T] [Zero T] (hv : cv.Exact (fun _ => True)) (fs : FS) (name : String)
    (sizes : List Nat) (es : List (Ent T)) (l : List (Nat × Ent T)) (hsum : sizes.sum + 1 < 2 ^ 32)
    (hgrid : sizes.length * sizes.length < 2 ^ 32) (hbr : sizes.length ≤ sizes.sum) (hne : es ≠ []) (hlen : es.length < 2 ^ 32)
    (hin : InRange es sizes.sum sizes.sum) (hl : BlockOrder (sizeToOffset (2 ^ 32) sizes) sizes.length es l)
    (hf : fs name = some (blockFile 4 cv sizes.sum sizes.sum sizes.length sizes.length (l.map Prod.fst).dedup.length l)) :
    ∃ A, readBlockedCsbr 4 cv fs name (sizeToOffset (2 ^ 32) sizes) sizes.length (sizeToOffset (2 ^ 32) sizes) sizes.length =
        .ok (some (0, some A)) ∧
      ∀ nx ny, sizes.sum ≤ nx → sizes.sum ≤ ny → ∀ x y : Nat → T,
        A.spmv (2 ^ 32) (Buf.full nx x) (Buf.full ny y) = .ok (Buf.full ny (spmvExact es x y)) := by
  have P := C22_partition (2 ^ 32) sizes (show sizes.sum < 2 ^ 32 by omega)
  have hE : ents (asElements es) = es := ents_asElements es
  have hlenE : (asElements es).length = es.length := by simp [asElements]
  have hneE : asElements es ≠ [] := by simpa [asElements] using hne
  have hinE : InRange (ents (asElements es)) sizes.sum sizes.sum := by rw [hE]; exact hin
  let d : Disk := ⟨fun _ => true, 6 * 4 + (asElements es).length * (3 * 4 + cv.size), 6 * 4 + (asElements es).length * (3 * 4 + cv.size)⟩
  have hd : d.Works (6 * 4 + (asElements es).length * (3 * 4 + cv.size)) name := ⟨rfl, Nat.le_refl _, Nat.le_refl _⟩
  obtain ⟨Q, hQ⟩ := csbr_main (M := 2 ^ 32) (workers := 1) (by decide) P P hneE (by omega) hgrid hsum (by omega) hbr hbr hinE
  obtain ⟨A, es1, c1, c2, -, -⟩ := C40_csbr hv 1 sizes.sum sizes.sum (asElements es) (sizeToOffset (2 ^ 32) sizes) sizes.length
    (sizeToOffset (2 ^ 32) sizes) sizes.length P P (by decide) hneE (by omega) hgrid hsum (by omega) hbr hbr hinE d name hd
  have c1' := c1
  rw [hQ] at c1'
  have hA := (Except.ok.inj c1')
  have hes1 : es1 = prepared (sizeToOffset (2 ^ 32) sizes) sizes.length (sizeToOffset (2 ^ 32) sizes) sizes.length (asElements es) :=
    (congrArg Prod.snd hA).symm
  have hl' : l = es1.map recOf := by
    have := blockOrder_prepared P (asElements es) hinE
    rw [hE] at this
    rw [hes1]
    exact hl.unique P this
  have hnb : A.nnzblocks = (l.map Prod.fst).dedup.length := by
    have h1 : A.nnzblocks = (runs Element.block es1).length := by
      rw [hes1]
      exact (congrArg (fun q => q.1.nnzblocks) hA).symm
    obtain ⟨es2, -, -, s3, -, s5⟩ := blocked_steps sizes es (by omega) (by
      have := Nat.le_trans hbr (show sizes.sum ≤ 2 ^ 32 - 1 by omega); omega) (by omega) hne hlen hin
    have hs2 : es1 = sortElementsBlocks es2 := by rw [s3, hes1]; rfl
    rw [← hs2, ← hl'] at s5
    have hp := sortBlocks_perm es2
    have hlen1 : es1.length = es.length := by
      rw [hs2, hp.length_eq, s3, List.length_map, hlenE]
    rw [countBlocks_spec (2 ^ 32) es1 (by
      intro h
      rw [h] at hlen1
      exact hne (List.length_eq_zero_iff.1 hlen1.symm)) (by omega) (by rw [hs2]; exact (sortBlocks_sorted _).imp (fun h => by omega))] at s5
    rw [h1]
    exact Except.ok.inj s5
  obtain ⟨fs', w1, w2, w3⟩ := c2 fs
  have hfs : fs' = fs := by
    have hw := writeBinBlocked_eq (cv := cv) (w := 4) (by decide) hv d fs name sizes.sum sizes.sum sizes.length sizes.length A.nnzblocks es1 rfl
    rw [w1] at hw
    have hw := congrArg Prod.snd hw
    simp only at hw
    funext m
    by_cases hm : m = name
    · subst hm
      rw [w2, hf, ← hl', hnb]
    · rw [hw, FS.set_other _ _ hm]
  rw [hfs] at w3
  refine ⟨_, w3, fun nx ny hnx hny x y => ?_⟩
  obtain ⟨A', es'', g1, g2⟩ := C08_csbr_spmv (2 ^ 32) 1 sizes.sum sizes.sum (asElements es) (sizeToOffset (2 ^ 32) sizes) sizes.length
    (sizeToOffset (2 ^ 32) sizes) sizes.length P P (by decide) hneE (by omega) hgrid hsum (by omega) hbr hbr hinE nx ny hnx hny x y
  rw [c1] at g1
  cases g1
  rw [hE] at g2
  exact g2

/-- **C78**, blocked files: the `.block` file written by `prepare` carries as numbers of rows and columns whatever the two
uninitialised variables held.  If that is the sum of the block sizes, `read_bin_blocked` gives a matrix whose product is, bit for bit,
the one CSR computes for the permuted matrix; in every other case it stops at an assertion. -/
theorem C78_block {cv : Codec T} [Add T] [Mul T] [Zero T] (hv : cv.Exact (fun _ => True)) {decimal : Nat → String} (malloc0 : Bool) {d : Disk}
    {fs : FS} (gr gc : Nat) {frow fcol fval fperm fsizes out : String} {p sizes : List Nat} {k N : Nat} {es es' : List (Ent T)}
    (R : PrepareRun cv decimal d fs frow fcol fval fperm fsizes out p sizes k N es es')
    (hout : ¬ tmpDir.toList <+: out.toList) (hgr : gr < 2 ^ 32) (hgc : gc < 2 ^ 32)
    (hsum : sizes.sum + 1 < 2 ^ 32) (hgrid : sizes.length * sizes.length < 2 ^ 32) (hbr : sizes.length ≤ sizes.sum) :
    ∃ fs', prepareTool cv decimal malloc0 d fs gr gc [frow, fcol, fval, fperm, fsizes, out] = .ok (0, fs') ∧
      (gr = sizes.sum ∧ gc = sizes.sum → ∃ A,
        readBlockedCsbr 4 cv fs' (out ++ ".block") (sizeToOffset (2 ^ 32) sizes) sizes.length (sizeToOffset (2 ^ 32) sizes) sizes.length =
          .ok (some (0, some A)) ∧
        ∀ nx ny, sizes.sum ≤ nx → sizes.sum ≤ ny → ∀ x y : Nat → T,
          A.spmv (2 ^ 32) (Buf.full nx x) (Buf.full ny y) = .ok (Buf.full ny (spmvExact es' x y))) ∧
      (¬ (gr = sizes.sum ∧ gc = sizes.sum) →
        readBlockedCsbr 4 cv fs' (out ++ ".block") (sizeToOffset (2 ^ 32) sizes) sizes.length (sizeToOffset (2 ^ 32) sizes) sizes.length =
          .error .assertion) := by
  obtain ⟨fs', esR, esC, l, φ, a1, -, -, a4, a5, -⟩ := C63_prepare hv malloc0 gr gc R hout
  have hes' : es'.length = es.length := by rw [(permuted_relabel R.permuted).1, relabel, List.length_map]
  have hnnz : es'.length < 2 ^ 32 := by have := R.words; omega
  have hne : es' ≠ [] := by
    intro h
    rw [h] at hes'
    exact R.nonempty (List.length_eq_zero_iff.1 hes'.symm)
  refine ⟨fs', a1, ?_, ?_⟩
  · rintro ⟨rfl, rfl⟩
    exact readBlocked_of_blockOrder hv fs' _ sizes es' l hsum hgrid hbr hne hnnz R.inside a4 a5
  · intro h
    have P := R.sizesFit.partition
    have hll : l.length = es'.length := by rw [← a4.perm.length_eq, List.length_map]
    have hdl := (List.dedup_sublist (l.map Prod.fst)).length_le
    rw [List.length_map] at hdl
    exact (C40_header_checked (w := 4) (by decide) cv 1 1 (fun _ _ _ => .coo) true fs' (out ++ ".block") gr gc sizes.length sizes.length
      (l.map Prod.fst).dedup.length l _ _ sizes.length sizes.length _ _ P P a5 hgr hgc (show _ < 2 ^ 32 by omega) R.sizesFit.len
      R.sizesFit.len (show _ < 2 ^ 32 by omega) (by omega)).1

end Gsb
