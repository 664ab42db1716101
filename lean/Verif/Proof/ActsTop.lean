import Verif.Proof.Acts
import Verif.Proof.CgbrTop
/-
The blocks of CGBR and CGBR2, and the whole constructors, without any law of `+` or `*`.
-/
namespace Gsb
variable {T : Type}

section
variable [Add T] [Mul T]

/-- A kernel that adds entries one after the other acts row by row. -/
theorem inOrder_winAct (L : List (Ent T)) (rs : Nat) (hL : ∀ e ∈ L, e.row < rs) (yo xo : Nat) (x y : Nat → T) :
    spmvInOrder (shift yo xo L) x y = winAct yo rs (fun r t => accumulate x t (rowEntries (shift 0 xo L) r)) y := by
  funext j
  by_cases hj : yo ≤ j ∧ j < yo + rs
  · obtain ⟨r, rfl⟩ : ∃ r, j = yo + r := ⟨j - yo, by omega⟩
    rw [winAct_in _ _ _ _ (by omega)]
    unfold spmvInOrder accumulate rowEntries shift
    rw [List.filter_map, List.filter_map, List.foldl_map, List.foldl_map]
    have : ((fun e : Ent T => e.row == yo + r) ∘ fun e : Ent T => (⟨yo + e.row, xo + e.col, e.val⟩ : Ent T)) =
        ((fun e : Ent T => e.row == r) ∘ fun e : Ent T => (⟨0 + e.row, xo + e.col, e.val⟩ : Ent T)) := by
      funext e; rw [Bool.eq_iff_iff]; simp
    rw [this]
  · rw [winAct_out _ _ _ _ hj]
    unfold spmvInOrder rowEntries shift
    rw [List.filter_eq_nil_iff.2 (by
      intro e he
      obtain ⟨e', he', rfl⟩ := List.mem_map.1 he
      have := hL e' he'
      simp only [beq_iff_eq]; omega)]
    rfl

theorem lastAt_cases [Zero T] (es : List (Ent T)) (h : Distinct es) (i j : Nat) :
    (es.filter (fun e => e.row == i && e.col == j) = [] ∧ lastAt es i j = 0) ∨
      ∃ e, es.filter (fun e => e.row == i && e.col == j) = [e] ∧ lastAt es i j = e.val := by
  induction es using List.reverseRecOn with
  | nil => exact Or.inl ⟨rfl, rfl⟩
  | append_singleton es e ih =>
    unfold Distinct at h
    rw [List.pairwise_append] at h
    rw [lastAt_snoc, List.filter_append]
    by_cases hc : e.row = i ∧ e.col = j
    · refine Or.inr ⟨e, ?_, if_pos hc⟩
      rw [List.filter_eq_nil_iff.2]
      · simp [hc.1, hc.2]
      · intro a ha hh
        simp at hh
        exact h.2.2 a ha e (by simp) ⟨by omega, by omega⟩
    · have : (e.row == i && e.col == j) = false := by
        rw [Bool.eq_false_iff]; simpa using hc
      rw [if_neg hc]
      simp only [List.filter_cons, this, Bool.false_eq_true, if_false, List.filter_nil, List.append_nil]
      exact ih h.1

/-- A row of a dense block. -/
theorem dense_total [Zero T] (L : List (Ent T)) (rs cs : Nat) (hin : InRange L rs cs) (hd : Distinct L) (n xo : Nat) (hn : xo + cs ≤ n)
    (x : Nat → T) (r : Nat) (t : T) :
    Total (zeroPad n x) (t :: products (shift 0 xo L) x r) (denseAcc (lastAt L r) (fun j => x (xo + j)) cs t) := by
  have key : ∀ m, m ≤ cs → Total (zeroPad n x)
      (t :: (L.filter (fun e => e.row == r && decide (e.col < m))).map (fun e => e.val * x (xo + e.col)))
      (denseAcc (lastAt L r) (fun j => x (xo + j)) m t) := by
    intro m
    induction m with
    | zero => intro _; simpa [denseAcc] using Total.one t
    | succ m ih =>
      intro hm
      have hacc : denseAcc (lastAt L r) (fun j => x (xo + j)) (m + 1) t =
          denseAcc (lastAt L r) (fun j => x (xo + j)) m t + lastAt L r m * x (xo + m) := by
        simp [denseAcc, List.range_succ]
      have hp : (L.filter (fun e => e.row == r && decide (e.col < m)) ++ L.filter (fun e => e.row == r && e.col == m)).Perm
          (L.filter (fun e => e.row == r && decide (e.col < m + 1))) := by
        have := List.filter_append_perm (fun e : Ent T => decide (e.col < m)) (L.filter (fun e => e.row == r && decide (e.col < m + 1)))
        rw [List.filter_filter, List.filter_filter] at this
        refine List.Perm.trans (List.Perm.of_eq ?_) this
        congr 2 <;>
        · funext e
          rw [Bool.eq_iff_iff]
          simp
          omega
      rw [hacc]
      rcases lastAt_cases L hd r m with ⟨h1, h2⟩ | ⟨e, h1, h2⟩
      · rw [h1, List.append_nil] at hp
        rw [h2]
        refine .perm ((hp.map _).cons t) ?_
        exact (ih (by omega)).addPad (Or.inr ⟨xo + m, by omega, rfl⟩)
      · have he : e.col = m := by
          have : e ∈ L.filter (fun e => e.row == r && e.col == m) := by rw [h1]; simp
          have := (List.mem_filter.1 this).2
          simp at this
          exact this.2
        rw [h2]
        have := (ih (by omega)).snoc (b := e.val * x (xo + m))
        refine .perm ?_ this
        rw [h1] at hp
        have := (hp.map (fun e => e.val * x (xo + e.col))).cons t
        rw [List.map_append, List.map_singleton, he] at this
        exact this
  have := key cs (Nat.le_refl _)
  have e1 : products (shift 0 xo L) x r = (L.filter (fun e => e.row == r && decide (e.col < cs))).map (fun e => e.val * x (xo + e.col)) := by
    unfold products rowEntries shift
    rw [List.filter_map, List.map_map]
    have : L.filter ((fun e : Ent T => e.row == r) ∘ fun e : Ent T => (⟨0 + e.row, xo + e.col, e.val⟩ : Ent T)) =
        L.filter (fun e => e.row == r && decide (e.col < cs)) := by
      refine List.filter_congr (fun e he => ?_)
      have := (hin e he).2
      simp [this]
    rw [this]
    rfl
  rw [e1]
  exact this

variable [Zero T] {β : Type}

/-- The block turns row `r` of `y` into a sum of it and of the products of the entries `L` in that row. -/
def BlockActs (spmv : β → Buf T → Nat → Buf T → Nat → C (Buf T)) (rs cs : Nat) (L : List (Ent T)) (b : β) : Prop :=
  ∀ n nx xo (x : Nat → T), xo + cs ≤ n → n ≤ nx → ∃ F : Nat → T → T,
    (∀ ny yo (y : Nat → T), yo + rs ≤ ny →
      spmv b (Buf.full nx x) xo (Buf.full ny y) yo = .ok (Buf.full ny (winAct yo rs F y))) ∧
    ∀ r, r < rs → ∀ t, Total (zeroPad n x) (t :: products (shift 0 xo L) x r) (F r t)

/-- What a block constructor must do for a block. -/
structure MakesAct (make : MakeBlock β T) (spmv : β → Buf T → Nat → Buf T → Nat → C (Buf T))
    (nonzeros : β → C Nat) (rs cs : Nat) (g : List (Element T)) (r : Nat × β × List (Element T)) : Prop where
  ok : make rs cs g = .ok r
  type : r.1 < 6
  length : r.2.2.length = g.length
  mul : BlockActs spmv rs cs (ents g) r.2.1
  nnz : ∃ n, nonzeros r.2.1 = .ok n

def GoodMakeAct (M : Nat) (make : MakeBlock β T) (spmv : β → Buf T → Nat → Buf T → Nat → C (Buf T))
    (nonzeros : β → C Nat) (ok : Nat → Nat → List (Ent T) → Prop) : Prop :=
  ∀ rs cs (g : List (Element T)), g ≠ [] → g.length < M → rs + 1 < M → cs < M → InRange (ents g) rs cs →
    g.Pairwise (fun a b => a.row ≤ b.row) → ok rs cs (ents g) → ∃ r, MakesAct make spmv nonzeros rs cs g r

theorem mkCoo_acts (M S : Nat) (g : List (Element T)) (rs cs : Nat) (hin : InRange (ents g) rs cs)
    (hS : ∀ e ∈ ents g, e.row < S ∧ e.col < S) :
    ∃ A, mkCoo M S g = .ok (A, sortTripletsMorton M g) ∧ A.nnz = g.length ∧ BlockActs Coo.spmv rs cs (ents g) A := by
  obtain ⟨A, h1, h2, -⟩ := mkCoo_spmv M S g hS (nx := cs) (ny := rs) (xo := 0) (yo := 0) (fun _ => (0 : T)) (fun _ => 0)
    (fun e he => by have := hin e he; omega) (fun e he => by have := hin e he; omega)
  refine ⟨A, h1, h2, ?_⟩
  have hp := ents_perm (sortMorton_perm M g)
  intro n nx xo x hx hn
  refine ⟨fun r t => accumulate x t (rowEntries (shift 0 xo (ents (sortTripletsMorton M g))) r), fun ny yo y hy => ?_, fun r hr t => ?_⟩
  · obtain ⟨A', h3, -, h4⟩ := mkCoo_spmv M S g hS (nx := nx) (ny := ny) (xo := xo) (yo := yo) x y
      (fun e he => by have := hin e he; omega) (fun e he => by have := hin e he; omega)
    rw [h1] at h3
    have : A = A' := by injection h3 with h; injection h
    subst this
    rw [h4, inOrder_winAct _ rs (fun e he => (hin e (hp.mem_iff.1 he)).1)]
  · exact .perm ((products_perm (hp.map _) x r).cons t) (total_accumulate x t _)

theorem csr_acts (M S : Nat) (g : List (Element T)) (rs cs : Nat) (hlen : g.length < M) (hr : rs + 1 < M)
    (hin : InRange (ents g) rs cs) (hs : g.Pairwise (fun a b => a.row ≤ b.row)) (hS : ∀ e ∈ ents g, e.col < S) :
    csrBuild M S g rs cs = .ok (csrOf S g rs cs) ∧ BlockActs Csr.spmv rs cs (ents g) (csrOf S g rs cs) ∧
      BlockActs Csr.spmvSerial rs cs (ents g) (csrOf S g rs cs) ∧
      (csrOf S g rs cs).nonzeros = .ok g.length := by
  have hrow : ∀ e ∈ g, (NZ.toEnt e : Ent T).row < rs := fun e he => (hin _ (List.mem_map_of_mem (f := NZ.toEnt) he)).1
  have R := csrOf_rep S g rs cs hrow hs
  rw [truncCols_eq hS] at R
  refine ⟨csrBuild_spec M S g rs cs hlen hr hrow, ?_, ?_, ?_⟩
  · intro n nx xo x hx hn
    refine ⟨fun r t => accumulate x t (rowEntries (shift 0 xo (ents g)) r), fun ny yo y hy => ?_,
      fun r hr t => total_accumulate x t _⟩
    rw [← inOrder_winAct _ rs (fun e he => (hin e he).1)]
    exact spmvCsr_spec R x y (fun e he => by have := hin e he; omega) hy
  · intro n nx xo x hx hn
    refine ⟨fun r t => accumulate x t (rowEntries (shift 0 xo (ents g)) r), fun ny yo y hy => ?_,
      fun r hr t => total_accumulate x t _⟩
    rw [← inOrder_winAct _ rs (fun e he => (hin e he).1)]
    exact spmvCsrSerial_spec R x y (fun e he => by have := hin e he; omega) hy
  · unfold Csr.nonzeros
    simp only [csrOf]
    rw [Buf.get_full (by omega), if_pos (Nat.le_refl _), countP_lt_all g (fun e => (NZ.toEnt e : Ent T).row) rs hrow]

theorem dense_acts (M : Nat) (g : List (Element T)) (rs cs : Nat) (hM : rs * cs < M) (hin : InRange (ents g) rs cs)
    (hd : Distinct (ents g)) :
    BlockActs (Dense.spmv M) rs cs (ents g)
      (⟨Buf.full (rs * cs) (fun p => lastAt (ents g) (p / cs) (p % cs)), rs, cs⟩ : Dense T) := by
  intro n nx xo x hx hn
  refine ⟨fun r t => denseAcc (lastAt (ents g) r) (fun j => x (xo + j)) cs t, fun ny yo y hy => ?_,
    fun r _ t => dense_total (ents g) rs cs hin hd n xo hx x r t⟩
  rw [dense_spmv_spec M _ (fun i j => lastAt (ents g) i j) hM rfl
    (fun i j hi hj => by
      have hj' : j < cs := hj
      have h' := (pos_iff (r := i) hj').1 rfl
      simp only [Buf.full_dat]
      rw [← h'.1, ← h'.2]) (show xo + cs ≤ nx by omega) hy]
  rfl

theorem makesAct_cgbr (M S : Nat) (choose : Nat → Nat → Nat → BlockChoice) (serial : Bool) (rs cs : Nat)
    (g : List (Element T)) (hcs : 0 < cs) (hlen : g.length < M) (hr : rs + 1 < M) (hin : InRange (ents g) rs cs)
    (hs : g.Pairwise (fun a b => a.row ≤ b.row)) (hok : cgbrOk M S choose rs cs (ents g)) :
    ∃ r, MakesAct (cooToMatrixBlock M S choose : MakeBlock (MatrixBlock T) T)
      (if serial then MatrixBlock.spmvSerial M else MatrixBlock.spmv M) (MatrixBlock.nonzeros M) rs cs g r := by
  have hl : (ents g).length = g.length := by simp [ents]
  unfold cgbrOk at hok
  rw [hl] at hok
  cases hch : choose rs cs g.length with
  | coo =>
    rw [hch] at hok
    have hS : ∀ e ∈ ents g, e.row < S ∧ e.col < S := fun e he => by have := hin e he; omega
    obtain ⟨A, h1, h2, h3⟩ := mkCoo_acts M S g rs cs hin hS
    refine ⟨(0, .coo A, sortTripletsMorton M g), ?_, by simp, (sortMorton_perm M g).length_eq, ?_, ⟨A.nnz, rfl⟩⟩
    · unfold cooToMatrixBlock; simp only [hch]; rw [cooToBlockCoo_spec M S g hS, h1, ok_bind]
    · cases serial <;> exact h3
  | csr =>
    rw [hch] at hok
    obtain ⟨h1, h2, h3, h4⟩ := csr_acts M S g rs cs hlen hr hin hs (fun e he => by
      have := hin e he; have : cs ≤ S := hok; omega)
    refine ⟨(1, .csr (csrOf S g rs cs), g), ?_, by simp, rfl, ?_, ⟨_, h4⟩⟩
    · unfold cooToMatrixBlock; simp only [hch]; unfold cooToBlockCsr; simp only [if_true]; rw [h1, ok_bind]; rfl
    · cases serial
      · exact h2
      · exact h3
  | dense =>
    rw [hch] at hok
    obtain ⟨hM, hd⟩ := hok
    refine ⟨(2, .dense ⟨Buf.full (rs * cs) (fun p => lastAt (ents g) (p / cs) (p % cs)), rs, cs⟩, g), ?_, by simp, rfl, ?_,
      ⟨_, rfl⟩⟩
    · unfold cooToMatrixBlock; simp only [hch]; unfold cooToDense
      simp only
      rw [denseFill_spec M g rs cs hM hin, mulM_eq hM, cassert_ok (by
        simp only [decide_eq_true_eq]
        exact Nat.le_mul_of_pos_right rs (by omega)), ok_bind, ok_bind, ok_bind]
    · cases serial <;> exact dense_acts M g rs cs hM hin hd

theorem goodMakeAct_cgbr (M S : Nat) (choose : Nat → Nat → Nat → BlockChoice) (serial : Bool) :
    GoodMakeAct M (cooToMatrixBlock M S choose : MakeBlock (MatrixBlock T) T)
      (if serial then MatrixBlock.spmvSerial M else MatrixBlock.spmv M)
      (MatrixBlock.nonzeros M) (cgbrOk M S choose) := by
  intro rs cs g hne hlen hr hc hin hs hok
  obtain ⟨a, ha⟩ := List.exists_mem_of_ne_nil g hne
  have hacs := (hin _ (List.mem_map_of_mem (f := NZ.toEnt) ha)).2
  exact makesAct_cgbr M S choose serial rs cs g (by omega) hlen hr hin hs hok

theorem goodMakeAct_factory (M S : Nat) (choose : Nat → Nat → Nat → FactoryChoice) :
    GoodMakeAct M (factoryDefault M S choose : MakeBlock (BlockObj T) T) BlockObj.spmv (fun b => .ok b.nnz)
      (factoryOk M S choose) := by
  intro rs cs g hne hlen hr hc hin hs hok
  have hl : (ents g).length = g.length := by simp [ents]
  unfold factoryOk at hok
  rw [hl] at hok
  cases hch : choose rs cs g.length with
  | coo =>
    rw [hch] at hok
    obtain ⟨A, h1, h2, h3⟩ := mkCoo_acts M S g rs cs hin (fun e he => by have := hin e he; omega)
    refine ⟨(0, ⟨g.length, A.spmv, A.spmvP⟩, sortTripletsMorton M g), ?_, by simp, (sortMorton_perm M g).length_eq, h3, ⟨_, rfl⟩⟩
    unfold factoryDefault; simp only [hch]; rw [h1, ok_bind]
  | csr =>
    rw [hch] at hok
    obtain ⟨h1, h2, h3, h4⟩ := csr_acts M S g rs cs hlen hr hin hs (fun e he => by
      have := hin e he; have : cs ≤ S := hok; omega)
    refine ⟨(1, ⟨g.length, (csrOf S g rs cs).spmvSerial, (csrOf S g rs cs).spmvSerialP⟩, g), ?_, by simp, rfl, h3, ⟨_, rfl⟩⟩
    unfold factoryDefault; simp only [hch]; rw [h1, ok_bind]
  | csrPar =>
    rw [hch] at hok
    obtain ⟨h1, h2, h3, h4⟩ := csr_acts M S g rs cs hlen hr hin hs (fun e he => by
      have := hin e he; have : cs ≤ S := hok; omega)
    refine ⟨(4, ⟨g.length, (csrOf S g rs cs).spmv, (csrOf S g rs cs).spmvP⟩, g), ?_, by simp, rfl, h2, ⟨_, rfl⟩⟩
    unfold factoryDefault; simp only [hch]; rw [h1, ok_bind]
  | dense =>
    rw [hch] at hok
    obtain ⟨hM, hd⟩ := hok
    refine ⟨(2, ⟨g.length, Dense.spmv M ⟨Buf.full (rs * cs) (fun p => lastAt (ents g) (p / cs) (p % cs)), rs, cs⟩,
      Dense.spmvP M ⟨Buf.full (rs * cs) (fun p => lastAt (ents g) (p / cs) (p % cs)), rs, cs⟩⟩, g), ?_,
      by simp, rfl, dense_acts M g rs cs hM hin hd, ⟨_, rfl⟩⟩
    · unfold factoryDefault; simp only [hch]; unfold mkDense
      rw [denseFill_spec M g rs cs hM hin, ok_bind, ok_bind]

/-! ### The matrix built -/

/-- All blocks of the matrix with elements `es` were built and act row by row. -/
def AllActs (make : MakeBlock β T) (spmv : β → Buf T → Nat → Buf T → Nat → C (Buf T))
    (nonzeros : β → C Nat) (fR fC : Nat → Nat) (bc : Nat) (es : List (Element T)) (res : Results β T) : Prop :=
  ∀ k, k < (runs Element.block es).length →
    MakesAct make spmv nonzeros (blkRows fR bc es k) (blkCols fC bc es k) (runLoc fR fC bc es k) (res k)

variable {M : Nat} {offR offC : List Nat} {blockrows bc : Nat} {es : List (Element T)} {fR fC : Nat → Nat}

theorem gbr_actRep {make : MakeBlock β T} {spmv : β → Buf T → Nat → Buf T → Nat → C (Buf T)} {nonzeros : β → C Nat}
    {res : Results β T} {rows columns : Nat} (H : BlkIn M fR fC blockrows bc es)
    (hR : ∀ i, i ≤ blockrows → rd offR i = .ok (fR i)) (hC : ∀ i, i ≤ bc → rd offC i = .ok (fC i))
    (hmono : ∀ i, i < blockrows → fR i ≤ fR (i + 1)) (hres : AllActs make spmv nonzeros fR fC bc es res)
    (n nx : Nat) (hx : ∀ i, i ≤ bc → fC i ≤ n) (hn : n ≤ nx) (x : Nat → T) :
    ∃ F, ActRep (zeroPad n x) ((gbrOf res offR offC rows columns blockrows bc es).toBlockMat spmv nonzeros)
      bc fR fC (runKeys Element.block es) nx x (blkEnts fR bc es) F := by
  have hcol : ∀ k (hk : k < (runs Element.block es).length),
      fC (runKey Element.block (runs Element.block es)[k] % bc) + blkCols fC bc es k ≤ n := by
    intro k hk
    obtain ⟨hm1, hm2, -⟩ := run_mem Element.block es k hk
    obtain ⟨a, ha⟩ := List.exists_mem_of_ne_nil _ hm2
    have hac := H.inC a (hm1 a ha).1
    rw [(hm1 a ha).2] at hac
    rw [blkCols_eq hk]
    have := hx (runKey Element.block (runs Element.block es)[k] % bc + 1) (Nat.mod_lt _ H.bcPos)
    omega
  have hall : ∀ k, ∃ F : Nat → T → T, ∀ hk : k < (runs Element.block es).length,
      (∀ ny yo (y : Nat → T), yo + blkRows fR bc es k ≤ ny →
        spmv (res k).2.1 (Buf.full nx x) (fC (runKey Element.block (runs Element.block es)[k] % bc)) (Buf.full ny y) yo =
          .ok (Buf.full ny (winAct yo (blkRows fR bc es k) F y))) ∧
      ∀ r, r < blkRows fR bc es k → ∀ t, Total (zeroPad n x) (t :: products (blkEnts fR bc es k) x r) (F r t) := by
    intro k
    by_cases hk : k < (runs Element.block es).length
    · obtain ⟨F, h1, h2⟩ := (hres k hk).mul n nx (fC (runKey Element.block (runs Element.block es)[k] % bc)) x (hcol k hk) hn
      refine ⟨F, fun _ => ⟨h1, fun r hr t => ?_⟩⟩
      have := h2 r hr t
      rw [shift_runLoc H hk, shift_zero] at this
      exact this
    · exact ⟨fun _ t => t, fun h => absurd h hk⟩
  choose F hF using hall
  refine ⟨F, H.bcPos, runKeys_strict H, ?_, ?_, ?_, hR, fun i hi => hC i (Nat.le_of_lt hi), hmono, ?_, ?_, ?_⟩
  · intro κ hκ
    obtain ⟨e, he, rfl⟩ := (mem_runKeys Element.block es κ).1 hκ
    exact H.row e he
  · intro i hi
    have hi' : i ≤ blockrows := hi
    simp only [Gbr.toBlockMat, gbrOf]
    rw [Buf.get_full (by omega), if_pos hi']
  · intro k hk
    simp only [Gbr.toBlockMat, gbrOf]
    exact Buf.get_ok (by simpa using hk) (by simp only; rw [List.getElem?_eq_getElem hk]; rfl)
  · intro k hk ny yo y hy
    have hk' : k < (runs Element.block es).length := by simpa using hk
    have hrw := blkRows_eq (fR := fR) (bc := bc) hk'
    rw [runKeys_getElem _ _ _ hk'] at hy ⊢
    rw [← hrw] at hy ⊢
    simp only [Gbr.toBlockMat, gbrOf]
    rw [Buf.get_ok (a := (res k).2.1) hk' (by simp [hk']), ok_bind]
    exact (hF k hk').1 ny yo y hy
  · intro k hk e he
    have hk' : k < (runs Element.block es).length := by simpa using hk
    have hm := (run_mem Element.block es k hk').1
    rw [runKeys_getElem _ _ _ hk']
    rw [blkEnts_eq fR bc es hk'] at he
    obtain ⟨a, ha, rfl⟩ := List.mem_map.1 he
    have := H.inR a (hm a ha).1
    simp only [← (hm a ha).2]
    omega
  · intro k hk r t hr
    have hk' : k < (runs Element.block es).length := by simpa using hk
    rw [runKeys_getElem _ _ _ hk', ← blkRows_eq (fR := fR) (bc := bc) hk'] at hr
    exact (hF k hk').2 r hr t

omit [Mul T] [Add T] [Zero T] in
theorem gbr_partition' {spmv : β → Buf T → Nat → Buf T → Nat → C (Buf T)} {nonzeros : β → C Nat}
    {res : Results β T} {rows columns workers : Nat} (hw : 0 < workers)
    (hres : ∀ k, k < (runs Element.block es).length → ∃ n, nonzeros (res k).2.1 = .ok n) :
    ∃ P, partitionInit M workers ((gbrOf res offR offC rows columns blockrows bc es).toBlockMat spmv nonzeros) = .ok P ∧
      PartShape bc blockrows es P := by
  obtain ⟨P, h1, -, h2⟩ := partitionInit_shape (M := M) ((gbrOf res offR offC rows columns blockrows bc es).toBlockMat spmv nonzeros)
    (rowPtrOf bc (runKeys Element.block es)) hw (by
      intro i hi
      have hi' : i ≤ blockrows := hi
      simp only [Gbr.toBlockMat, gbrOf]
      rw [Buf.get_full (by omega), if_pos hi']; rfl) (fun i j h => rowPtrOf_mono _ _ h) (by
      intro k hk
      have hk' : k < (runs Element.block es).length := by
        have := rowPtrOf_le bc (runKeys Element.block es) blockrows
        rw [runKeys_length] at this
        exact Nat.lt_of_lt_of_le hk this
      obtain ⟨n, hn⟩ := hres k hk'
      refine ⟨n, ?_⟩
      simp only [Gbr.toBlockMat, gbrOf]
      rw [Buf.get_ok (a := (res k).2.1) hk' (by simp [hk']), ok_bind, hn])
  exact ⟨P, h1, h2⟩

theorem gbr_resultsAct {make : MakeBlock β T} {spmv : β → Buf T → Nat → Buf T → Nat → C (Buf T)}
    {nonzeros : β → C Nat} {ok : Nat → Nat → List (Ent T) → Prop} (G : GoodMakeAct M make spmv nonzeros ok)
    (H : BlkIn M fR fC blockrows bc es)
    (hok : ∀ k, k < (runs Element.block es).length → ok (blkRows fR bc es k) (blkCols fC bc es k) (ents (runLoc fR fC bc es k))) :
    ∃ res : Results β T, AllActs make spmv nonzeros fR fC bc es res := by
  refine choose_results (runs_length_pos _ H.ne) (fun k hk => ?_)
  obtain ⟨h1, h2, h3, h4, h5, h6⟩ := runLoc_ok H hk
  exact G _ _ _ h1 h2 h3 h4 h5 h6 (hok k hk)

/-- The matrix built, whatever the arithmetic. -/
theorem cgbr_mainAct (M S B workers rows columns : Nat) (choose : Nat → Nat → Nat → BlockChoice)
    (heavy : Nat → Nat → List Nat → Bool) (es : List (Element T))
    (offR : List Nat) (blockrows : Nat) (offC : List Nat) (blockcols : Nat)
    (PR : Partition offR blockrows rows) (PC : Partition offC blockcols columns)
    (hBS : B ≤ S) (hSR : BlocksAtMost offR B) (hSC : BlocksAtMost offC B)
    (hdense : ∀ rs cs n, rs ≤ B → cs ≤ B → n ≤ es.length → choose rs cs n = .dense → rs * cs < M)
    (hdup : (∀ rs cs n, choose rs cs n ≠ .dense) ∨ Distinct (ents es))
    (hw : 0 < workers) (hne : es ≠ []) (hlen : 2 * (es.length + 2) ≤ M) (hgrid : blockrows * blockcols < M)
    (hrows : rows + 1 < M) (hcols : columns < M) (hbr : blockrows ≤ rows) (hbc : blockcols ≤ columns)
    (hin : InRange (ents es) rows columns) :
    ∃ (res : Results (MatrixBlock T) T) (b : Bool) (P : List (List Nat)),
      cooToCgbr M S workers choose heavy es rows columns offR blockrows offC blockcols =
        .ok (⟨gbrOf res offR offC rows columns blockrows blockcols (prepared offR blockrows offC blockcols es), b, P⟩,
          ((List.range (runs Element.block (prepared offR blockrows offC blockcols es)).length).map (fun j => (res j).2.2)).flatten) ∧
      AllActs (cooToMatrixBlock M S choose) (MatrixBlock.spmv M) (MatrixBlock.nonzeros M) (offF offR) (offF offC) blockcols
        (prepared offR blockrows offC blockcols es) res ∧
      AllActs (cooToMatrixBlock M S choose) (MatrixBlock.spmvSerial M) (MatrixBlock.nonzeros M) (offF offR) (offF offC) blockcols
        (prepared offR blockrows offC blockcols es) res ∧
      (b = false → PartShape blockcols blockrows (prepared offR blockrows offC blockcols es) P) := by
  have H := prepared_blkIn (M := M) PR PC hne (by omega) hgrid hrows hcols hbr (by omega) hin
  have hpl := prepared_length (offR := offR) (blockrows := blockrows) (offC := offC) (blockcols := blockcols) (es := es)
  have hperm := ents_prepared_perm (offR := offR) (blockrows := blockrows) (offC := offC) (blockcols := blockcols) (es := es)
  have hok : ∀ k, k < (runs Element.block (prepared offR blockrows offC blockcols es)).length →
      cgbrOk M S choose (blkRows (offF offR) blockcols (prepared offR blockrows offC blockcols es) k)
        (blkCols (offF offC) blockcols (prepared offR blockrows offC blockcols es) k)
        (ents (runLoc (offF offR) (offF offC) blockcols (prepared offR blockrows offC blockcols es) k)) := by
    intro k hk
    obtain ⟨⟨i, lo, hi, -, i1, i2, i3⟩, ⟨j, lo', hi', -, j1, j2, j3⟩⟩ := blk_sizes H PR PC hk
    have s1 : blkRows (offF offR) blockcols (prepared offR blockrows offC blockcols es) k ≤ B := by
      rw [i3]; exact hSR i lo hi i1 i2
    have s2 : blkCols (offF offC) blockcols (prepared offR blockrows offC blockcols es) k ≤ B := by
      rw [j3]; exact hSC j lo' hi' j1 j2
    have hl : (ents (runLoc (offF offR) (offF offC) blockcols (prepared offR blockrows offC blockcols es) k)).length ≤ es.length := by
      have := (run_mem Element.block _ k hk).2.2
      rw [ents, List.length_map, runLoc_length hk, runLen_eq _ hk]
      omega
    unfold cgbrOk
    split
    · exact ⟨by omega, by omega⟩
    · omega
    · next h =>
      refine ⟨hdense _ _ _ s1 s2 hl h, ?_⟩
      rcases hdup with h' | h'
      · exact absurd h (h' _ _ _)
      · exact runLoc_distinct H (distinct_perm hperm.symm h') hk
  obtain ⟨res, hres⟩ := gbr_resultsAct (goodMakeAct_cgbr M S choose false) H hok
  obtain ⟨res', hres'⟩ := gbr_resultsAct (goodMakeAct_cgbr M S choose true) H hok
  have hresS : AllActs (cooToMatrixBlock M S choose) (MatrixBlock.spmvSerial M) (MatrixBlock.nonzeros M) (offF offR) (offF offC) blockcols
        (prepared offR blockrows offC blockcols es) res := by
    intro k hk
    have h1 := (hres k hk).ok
    rw [(hres' k hk).ok] at h1
    injection h1 with h1
    have := hres' k hk
    rw [h1] at this
    exact this
  have hb := gbrBuild_spec (rows := rows) (columns := columns) (res := res) (make := cooToMatrixBlock M S choose) H
    (fun i hi => PR.rd_ok i hi) (fun i hi => PC.rd_ok i hi) (fun k hk => (hres k hk).ok)
    (fun k hk => by rw [(hres k hk).length, runLoc_length hk]) (fun k hk => (hres k hk).type)
  obtain ⟨b, hbal⟩ := isBalanced_ok (M := M) (offR := offR) (offC := offC) (rows := rows) (columns := columns)
    (blockrows := blockrows) (bc := blockcols) heavy (fun k hk => (hres k hk).nnz)
  obtain ⟨P, hP1, hP2⟩ := gbr_partition' (M := M) (offR := offR) (offC := offC) (rows := rows) (columns := columns)
    (blockrows := blockrows) (bc := blockcols) (spmv := MatrixBlock.spmv M) hw (fun k hk => (hres k hk).nnz)
  refine ⟨res, b, if b = true then [] else P, ?_, hres, hresS, ?_⟩
  · unfold cooToCgbr
    rw [calculateBlockId_spec PR PC (by omega) (by omega) (by omega) hin, ok_bind]
    simp only
    have hc := countBlocks_spec M _ H.ne H.len H.sortedB
    unfold prepared at hc hb hbal hP1
    rw [hc, ok_bind, checkPartition_ok hbr hbc (fun i hi => PR.rd_ok i hi) (fun i hi => PC.rd_ok i hi) PR.at_last PC.at_last,
      ok_bind, hb, ok_bind, hbal, ok_bind]
    cases b
    · simp only [Bool.false_eq_true, if_false]
      have hP1' : partitionInit M workers (Cgbr.toBlockMat M (gbrOf res offR offC rows columns blockrows blockcols
            (sortElementsBlocks (es.map (withKey (blockKey offR blockrows offC blockcols)))))) = .ok P := hP1
      rw [hP1', ok_bind]; rfl
    · simp only [if_true, ok_bind]; rfl
  · intro hb0; subst hb0; exact hP2

theorem cgbr2_mainAct (M S workers rows columns : Nat) (factory : MakeBlock (BlockObj T) T) (D : Prop) (es : List (Element T))
    (offR : List Nat) (blockrows : Nat) (offC : List Nat) (blockcols : Nat)
    (PR : Partition offR blockrows rows) (PC : Partition offC blockcols columns)
    (hSR : BlocksAtMost offR S) (hSC : BlocksAtMost offC S)
    (ok : Nat → Nat → List (Ent T) → Prop)
    (hok : ∀ rs cs L, rs ≤ S → cs ≤ S → L.length ≤ es.length → (D → Distinct L) → ok rs cs L)
    (G : GoodMakeAct M factory BlockObj.spmv (fun b => .ok b.nnz) ok)
    (hdup : D → Distinct (ents es))
    (hw : 0 < workers) (hne : es ≠ []) (hlen : 2 * (es.length + 2) ≤ M) (hgrid : blockrows * blockcols < M)
    (hrows : rows + 1 < M) (hcols : columns < M) (hbr : blockrows ≤ rows) (hbc : blockcols ≤ columns)
    (hin : InRange (ents es) rows columns) :
    ∃ (res : Results (BlockObj T) T) (P : List (List Nat)),
      cgbr2Create M workers factory es rows columns offR blockrows offC blockcols =
        .ok (⟨gbrOf res offR offC rows columns blockrows blockcols (prepared offR blockrows offC blockcols es), P⟩,
          ((List.range (runs Element.block (prepared offR blockrows offC blockcols es)).length).map (fun j => (res j).2.2)).flatten) ∧
      AllActs factory BlockObj.spmv (fun b => .ok b.nnz) (offF offR) (offF offC) blockcols
        (prepared offR blockrows offC blockcols es) res ∧
      PartShape blockcols blockrows (prepared offR blockrows offC blockcols es) P := by
  have H := prepared_blkIn (M := M) PR PC hne (by omega) hgrid hrows hcols hbr (by omega) hin
  have hpl := prepared_length (offR := offR) (blockrows := blockrows) (offC := offC) (blockcols := blockcols) (es := es)
  have hperm := ents_prepared_perm (offR := offR) (blockrows := blockrows) (offC := offC) (blockcols := blockcols) (es := es)
  obtain ⟨res, hres⟩ := gbr_resultsAct G H (by
    intro k hk
    obtain ⟨⟨i, lo, hi, -, i1, i2, i3⟩, ⟨j, lo', hi', -, j1, j2, j3⟩⟩ := blk_sizes H PR PC hk
    refine hok _ _ _ (by rw [i3]; exact hSR i lo hi i1 i2) (by rw [j3]; exact hSC j lo' hi' j1 j2) ?_
      (fun h => runLoc_distinct H (distinct_perm hperm.symm (hdup h)) hk)
    have := (run_mem Element.block _ k hk).2.2
    rw [ents, List.length_map, runLoc_length hk, runLen_eq _ hk]
    omega)
  have hb := gbrBuild_spec (rows := rows) (columns := columns) (res := res) (make := factory) H
    (fun i hi => PR.rd_ok i hi) (fun i hi => PC.rd_ok i hi) (fun k hk => (hres k hk).ok)
    (fun k hk => by rw [(hres k hk).length, runLoc_length hk]) (fun k hk => (hres k hk).type)
  obtain ⟨P, hP1, hP2⟩ := gbr_partition' (M := M) (offR := offR) (offC := offC) (rows := rows) (columns := columns)
    (blockrows := blockrows) (bc := blockcols) (spmv := BlockObj.spmv) (nonzeros := fun b => .ok b.nnz) (res := res) hw (fun k hk => (hres k hk).nnz)
  refine ⟨res, P, ?_, hres, hP2⟩
  unfold cgbr2Create
  rw [checkPartition_ok hbr hbc (fun i hi => PR.rd_ok i hi) (fun i hi => PC.rd_ok i hi) PR.at_last PC.at_last, ok_bind,
    calculateBlockId_spec PR PC (by omega) (by omega) (by omega) hin, ok_bind]
  simp only
  unfold prepared at hb hP1
  rw [hb, ok_bind]
  have hP1' : partitionInit M workers (Cgbr2.toBlockMat (gbrOf res offR offC rows columns blockrows blockcols
        (sortElementsBlocks (es.map (withKey (blockKey offR blockrows offC blockcols)))))) = .ok P := hP1
  rw [hP1', ok_bind]; rfl

end
end Gsb
