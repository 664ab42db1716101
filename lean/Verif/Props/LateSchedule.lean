import Verif.Props.LateStart
import Verif.Props.Schedule
/-
C88, the parallel product under every schedule: offsets that do not start at 0.
-/
namespace Gsb
variable {T : Type}

theorem window_zero (b n : Nat) (y : Nat → T) : window b 0 n y = arr b 0 (Buf.full n y) := by
  unfold window
  simp only [Nat.sub_zero, Nat.zero_add]

theorem window_congr {b lo hi : Nat} {y y' : Nat → T} (h : ∀ i, lo ≤ i → i < hi → y i = y' i) : window b lo hi y = window b lo hi y' := by
  funext l
  rw [window_apply, window_apply]
  by_cases c : l.1 = b ∧ lo ≤ l.2 ∧ l.2 < hi
  · rw [if_pos c, if_pos c, h _ c.2.1 c.2.2]
  · rw [if_neg c, if_neg c]

/-- The balanced path under every schedule; the rows before the first block-row are left as they are. -/
theorem safe_balanced_late [Add T] [Mul T] {A : BlockMat T} {bc nx : Nat} {fR fC : Nat → Nat} {keys : List Nat}
    {x : Nat → T} {B : Nat → List (Ent T)} (R : BlockRep A bc fR fC keys nx x B) {code : BlockCode T} (hc : CodeFor A code)
    (b : Nat) (y : Nat → T) (hkeep : ∀ i, i < fR 0 → visit x y (allEnts bc fR keys B keys.length) i = y i) (n : Nat) :
    safe (fun _ m => m = arr b 0 (Buf.full (fR A.blockrows) (visit x y (allEnts bc fR keys B keys.length)))) n
      (spmvBalancedP A code (Buf.full nx x) b) (arr b 0 (Buf.full (fR A.blockrows) y)) := by
  have hle : fR 0 ≤ fR A.blockrows := R.mono' (Nat.zero_le _) (Nat.le_refl _)
  have key : ∀ n, safe (fun _ m => m = window b (fR 0) (fR A.blockrows) (visit x y (allEnts bc fR keys B keys.length))) n
      (spmvBalancedP A code (Buf.full nx x) b) (window b (fR 0) (fR A.blockrows) y) := by
    intro n
    refine safe_parFor_windows (Nat.zero_le _) (fun i _ hi => R.mono i hi) (fun bi _ hbi n => ?_) n
    rw [window_eq R y hbi]
    refine safe_read (R.ptr bi (by omega)) (safe_read (R.ptr (bi + 1) (by omega)) (safe_read (R.rowOff bi (by omega)) ?_))
    refine Good.safe (Good.blocks hc _ _ _ _ _) (Sim.blocks hc _ _ _ _ _) ?_ n
    exact spmvBlocks_spec R bi _ _ _ 0 _ (Nat.le_refl _) (rowPtrOf_mono bc keys (Nat.le_succ bi)) (Nat.le_refl _) (by omega)
  have hd : ∀ v w : Nat → T, Disj (window b (fR 0) (fR A.blockrows) v) (window b 0 (fR 0) w) := fun v w l => (window_disj l).symm
  have hu : ∀ v w : Nat → T, (∀ i, i < fR 0 → v i = w i) →
      (window b (fR 0) (fR A.blockrows) v).union (window b 0 (fR 0) w) = arr b 0 (Buf.full (fR A.blockrows) v) := by
    intro v w h
    rw [← window_congr (y := v) (y' := w) (fun i _ hi => h i hi), Mem.union_comm (hd v v), window_union (Nat.zero_le _) hle, window_zero]
  rw [← hu y y (fun _ _ => rfl)]
  refine safe_mono ?_ (safe_frame n (hd y y) (key n))
  rintro r m ⟨m0, rfl, -, rfl⟩
  exact hu _ _ hkeep

/-- No entry, no change. -/
theorem spmvExact_keep [Add T] [Mul T] {es : List (Ent T)} {x y : Nat → T} {i : Nat} (h : ∀ e ∈ es, e.row ≠ i) :
    spmvExact es x y i = y i := by
  unfold spmvExact rowByColumn rowEntries
  rw [List.filter_eq_nil_iff.2 (fun e he => by simpa using h e he), List.mergeSort_nil]
  rfl

/-- **C88**, the parallel product of a CSBR matrix, under every schedule. -/
theorem C88_csbr_schedules [Add T] [Mul T] [Zero T] (M workers rows columns : Nat) (es : List (Element T))
    (offR : List Nat) (blockrows : Nat) (offC : List Nat) (blockcols : Nat)
    (PR : Offsets offR blockrows rows) (PC : Offsets offC blockcols columns)
    (hw : 0 < workers) (hlen : es.length < M) (hgrid : blockrows * blockcols < M) (hrows : rows + 1 < M) (hcols : columns + 1 < M)
    (A : Csbr T) (es' : List (Element T)) (h : cooToCsbr M workers es rows columns offR blockrows offC blockcols = .ok (A, es'))
    (nx : Nat) (hnx : columns ≤ nx) (x y : Nat → T) :
    EverySchedule (fun Y => A.spmvP M (Buf.full nx x) Y) rows y (spmvExact (ents es) x y) := by
  obtain ⟨hne, b1, b2⟩ : es ≠ [] ∧ blockrows ≤ rows ∧ blockcols ≤ columns := by
    have h' := h
    obtain ⟨es1, h1, h'⟩ := bind_ok h'
    obtain ⟨A, h2, -⟩ := bind_ok h'
    unfold csbrBuild at h2
    obtain ⟨n, hn, h2⟩ := bind_ok h2
    obtain ⟨_, h4, h2⟩ := bind_ok h2
    obtain ⟨a, b, -, -⟩ := checkPartition_inv h4
    exact ⟨ne_of_countBlocks hn (calculateBlockId_ents h1), a, b⟩
  have hin := (C88_csbr M workers rows columns es offR blockrows offC blockcols (by have := PR.len; omega) (by have := PC.len; omega)
    (PR.lt (by omega)) (PC.lt (by omega)) _ h).from PR PC
  have H := prepared_blkIn_from (M := M) PR PC hne hlen hgrid hrows (by omega) b1 (by omega) hin
  obtain ⟨P, hP, -⟩ := csbr_partition (rows := rows) (columns := columns) (offR := offR) (offC := offC) hw H
  unfold cooToCsbr at h
  rw [calculateBlockId_from PR PC (by omega) (by omega) (by omega) hin, ok_bind] at h
  have e := csbrBuild_ok (workers := workers) H b1 b2 (fun i hi => PR.rd_ok i hi) (fun i hi => PC.rd_ok i hi)
    PR.at_last PC.at_last P hP
  unfold prepared at e
  simp only at h
  rw [e, ok_bind] at h
  cases h
  refine everySchedule_of_safe (fun Y n => ?_)
  have R := csbr_blockRep (rows := rows) (columns := columns) H (fun i hi => PR.rd_ok i hi) (fun i hi => PC.rd_ok i hi)
    (fun i hi => PR.mono (Nat.le_succ i) hi) nx (fun e he => by
      have := (hin _ (mem_prepared he).2).2.2; simp only at this; omega) x P
  have hall : visit x y (allEnts blockcols (offF offR) (runKeys Element.block (prepared offR blockrows offC blockcols es))
      (blkEnts (offF offR) blockcols (prepared offR blockrows offC blockcols es))
      (runKeys Element.block (prepared offR blockrows offC blockcols es)).length) = spmvExact (ents es) x y := by
    rw [allEnts_blkEnts H, visit_eq, prepared_exact]
  have := safe_balanced_late R (CodeFor.csbr _) Y y (fun i hi => by
    rw [hall]
    exact spmvExact_keep (fun e he => by have := (hin e he).1.1; omega)) n
  rw [hall] at this
  have hr : offF offR blockrows = rows := PR.at_last
  change safe (fun _ m => m = arr Y 0 (Buf.full (offF offR blockrows) _)) n _ (arr Y 0 (Buf.full (offF offR blockrows) _)) at this
  rw [hr] at this
  exact this

/-- **C88**, the parallel product of a CSBR2 matrix, under every schedule. -/
theorem C88_csbr2_schedules [Add T] [Mul T] (M rows columns : Nat) (es : List (Element T))
    (offR : List Nat) (blockrows : Nat) (offC : List Nat) (blockcols : Nat)
    (PR : Offsets offR blockrows rows) (PC : Offsets offC blockcols columns)
    (hlen : es.length < M) (hgrid : blockrows * blockcols < M) (hrows : rows + 1 < M) (hcols : columns + 1 < M)
    (A : Csbr2 T) (es' : List (Element T)) (h : cooToCsbr2 M es rows columns offR blockrows offC blockcols = .ok (A, es'))
    (nx : Nat) (hnx : columns ≤ nx) (x y : Nat → T) :
    EverySchedule (fun Y => A.spmvP M (Buf.full nx x) Y) rows y (spmvExact (ents es) x y) := by
  have hprod := C88_csbr2_product M rows columns es offR blockrows offC blockcols PR PC hlen hgrid hrows hcols A es' h nx rows hnx
    (Nat.le_refl _) x y
  have ho : A.offR = offR ∧ A.blockrows = blockrows := by
    obtain ⟨es1, h1, h'⟩ := bind_ok h
    obtain ⟨A1, h2, h3⟩ := bind_ok h'
    cases h3
    unfold csbr2Build at h2
    obtain ⟨_, -, h2⟩ := bind_ok h2
    obtain ⟨_, -, h2⟩ := bind_ok h2
    obtain ⟨_, -, h2⟩ := bind_ok h2
    obtain ⟨_, -, h2⟩ := bind_ok h2
    obtain ⟨_, -, h2⟩ := bind_ok h2
    obtain ⟨_, -, h2⟩ := bind_ok h2
    obtain ⟨_, -, h2⟩ := bind_ok h2
    cases h2
    exact ⟨rfl, rfl⟩
  have hb : blockrows ≤ rows := by
    have h' := h
    obtain ⟨es1, h1, h'⟩ := bind_ok h'
    obtain ⟨A, h2, -⟩ := bind_ok h'
    unfold csbr2Build at h2
    obtain ⟨n, hn, h2⟩ := bind_ok h2
    obtain ⟨_, h4, h2⟩ := bind_ok h2
    obtain ⟨a, b, -, -⟩ := checkPartition_inv h4
    exact a
  obtain ⟨o1, o2⟩ := ho
  exact everySchedule_of_good (fun Y => Good.csbr2 _ (offF offR) (fun i hi => by rw [o1]; exact PR.rd_ok i (by omega))
    (fun i j hij hj => PR.mono hij (by omega)) (fun i hi => by have := PR.le_total (i := i) (by omega); omega)
    (by omega) _ Y) (fun Y => Sim.csbr2 _ _ Y) hprod

end Gsb
