import Verif.Model.Csbr3Chunk
import Verif.Par.Acts
/-
CSBR3's task kernel as an instance of the general one (`spmvChunk`, Model/Gsb.lean).
-/
namespace Gsb
variable {T : Type}

section
variable [Add T] [Mul T]

/-- Csbr3 as a blocked matrix with COO blocks. -/
def Csbr3.toBlockMat (M : Nat) (A : Csbr3 T) : BlockMat T where
  blockrows := A.blockrows
  blockrowPtr := A.blockrowPtr
  blockcolInd := A.blockcolInd
  rowOff i := .ok (mulM M i A.blockSize)
  colOff i := .ok (mulM M i A.blockSize)
  blockSpmv k x xo y yo := do
    let s ← A.blockPtr.get k
    let e ← A.blockPtr.get (k + 1)
    spmvCoo A.val A.rowInd A.colInd s (subM M e s) x xo y yo
  blockNnz _ := .ok 0
  nnz := A.nnz

def Csbr3.code (M : Nat) (A : Csbr3 T) : BlockCode T := fun k x xo b yo =>
  Prog.read (A.blockPtr.get k) fun s =>
  Prog.read (A.blockPtr.get (k + 1)) fun e =>
  cooP A.val A.rowInd A.colInd s (subM M e s) x xo b yo

theorem CodeOk.cooP (v : Buf T) (ri ci : Buf Nat) (base nnz : Nat) :
    CodeOk (fun x xo y yo => spmvCoo v ri ci base nnz x xo y yo) (fun x xo b yo => Gsb.cooP v ri ci base nnz x xo b yo) := fun x xo b o =>
  ⟨⟨fun _ => True, Foot.seqFor (fun _ _ _ => Foot.read (fun _ _ => Foot.read (fun _ _ => Foot.read (fun _ _ =>
    (Foot.macc _ _ _ _ _).mono (fun _ _ => trivial)))))⟩, Good.coo _ _ _ _ _ _ _ _ _, Sim.coo v ri ci base nnz x xo b o 0⟩

theorem CodeFor.csbr3 (M : Nat) (A : Csbr3 T) : CodeFor (A.toBlockMat M) (A.code M) := fun _ =>
  CodeOk.read (fun _ _ => CodeOk.read (fun _ _ => CodeOk.cooP _ _ _ _ _))

theorem Csbr3.spmvBlocks_eq (M : Nat) (A : Csbr3 T) (lo hi : Nat) (x y : Buf T) (yo : Nat) :
    A.spmvBlocks M lo hi x y yo = Gsb.spmvBlocks (A.toBlockMat M) lo hi x y yo := rfl

theorem Csbr3.blocksP_eq (M : Nat) (A : Csbr3 T) (lo hi : Nat) (x : Buf T) (b yo : Nat) :
    A.blocksP M lo hi x b yo = spmvBlocksP (A.toBlockMat M) (A.code M) lo hi x b yo := rfl

variable [Zero T]

theorem Csbr3.spmvChunk_eq (M : Nat) (A : Csbr3 T) (chunks : List Nat) (x : Buf T) (fuel first last : Nat) (y : Buf T) (yo : Nat) :
    A.spmvChunk M chunks x fuel first last y yo =
      Gsb.spmvChunk M (A.toBlockMat M) chunks x A.blockSize fuel first last y yo := by
  induction fuel generalizing first last y yo with
  | zero => rfl
  | succ fuel ih =>
    unfold Csbr3.spmvChunk Gsb.spmvChunk
    split
    · rfl
    · simp only [ih]

theorem Csbr3.spmvChunkP_eq (M : Nat) (A : Csbr3 T) (chunks : List Nat) (x : Buf T) (fuel first last b yo : Nat) :
    A.spmvChunkP M chunks x fuel first last b yo =
      Gsb.spmvChunkP M (A.toBlockMat M) (A.code M) chunks x A.blockSize fuel first last b yo := by
  induction fuel generalizing first last b yo with
  | zero => rfl
  | succ fuel ih =>
    unfold Csbr3.spmvChunkP Gsb.spmvChunkP
    split
    · rfl
    · simp only [ih]

end

section
variable {M S bs : Nat} {blockrows blockcols rows columns : Nat} {es : List (Element T)}

theorem csbr3_actRep [Add T] [Mul T] {pad : T → Prop} (H : BlkIn M (· * bs) (· * bs) blockrows blockcols es) (hS : bs ≤ S)
    (hR : blockrows * bs < M) (hC : blockcols * bs < M)
    (nx : Nat) (hx : ∀ e ∈ es, e.col < nx) (x : Nat → T) :
    ∃ F, ActRep pad ((csbr3Of S bs rows columns blockrows blockcols es).toBlockMat M) blockcols (· * bs) (· * bs)
      (runKeys Element.block es) nx x (blkEnts (· * bs) blockcols es) F := by
  have hstep : ∀ i : Nat, (i + 1) * bs - i * bs = bs := by intro i; rw [Nat.add_mul]; omega
  refine ⟨fun k r t => accumulate x t (rowEntries (shift 0 ((((runKeys Element.block es)[k]?).getD 0) % blockcols * bs)
    (blkEnts3 S bs blockcols es k)) r), H.bcPos, runKeys_strict H, ?_, ?_, ?_, ?_, ?_, ?_, ?_, ?_, ?_⟩
  · intro κ hκ
    obtain ⟨e, he, rfl⟩ := (mem_runKeys Element.block es κ).1 hκ
    exact H.row e he
  · intro i hi
    have hi' : i ≤ blockrows := hi
    simp only [Csbr3.toBlockMat, csbr3Of]
    rw [Buf.get_full (by omega), if_pos hi']
  · intro k hk
    simp only [Csbr3.toBlockMat, csbr3Of]
    exact Buf.get_ok (by simpa using hk) (by simp only; rw [List.getElem?_eq_getElem hk]; rfl)
  · intro i hi
    have hi' : i ≤ blockrows := hi
    have := Nat.mul_le_mul_right bs hi'
    simp only [Csbr3.toBlockMat, csbr3Of]
    rw [mulM_eq (by omega)]
  · intro i hi
    have := Nat.mul_le_mul_right bs (Nat.le_of_lt hi)
    simp only [Csbr3.toBlockMat, csbr3Of]
    rw [mulM_eq (by omega)]
  · intro i _
    show i * bs ≤ (i + 1) * bs
    rw [Nat.add_mul]; omega
  · intro k hk ny yo y hy
    have hk' : k < (runs Element.block es).length := by simpa using hk
    have hrm := run_mem Element.block es k hk'
    have hm := hrm.1
    have hlen := H.len
    simp only [hstep] at hy ⊢
    rw [List.getElem?_eq_getElem hk, Option.getD_some]
    rw [runKeys_getElem _ _ _ hk']
    have hst : ∀ j, j ≤ (runs Element.block es).length →
        (ptr3 (runs Element.block es).length es.length (runs Element.block es)).get j = .ok (runStart Element.block es j) := by
      intro j hj
      refine Buf.get_ok (by simp [ptr3]; omega) ?_
      simp only [ptr3]
      by_cases h : j = (runs Element.block es).length
      · subst h; simp [runStart_length]
      · rw [if_neg h, if_pos (by omega), startOf_runs]
    have hle : runStart Element.block es (k + 1) ≤ es.length := by
      rw [← runStart_length Element.block es]
      unfold runStart
      exact (List.Sublist.map _ (List.take_sublist_take_left (by omega))).sum_le_sum (by simp)
    have hsucc := runStart_succ Element.block es k hk'
    simp only [Csbr3.toBlockMat, csbr3Of]
    rw [hst k (by omega), ok_bind, hst (k + 1) (by omega), ok_bind, subM_eq (by omega) (by omega)]
    have R : CooRep (blkEnts3 S bs blockcols es k) (runStart Element.block es k)
        ⟨es.length, fun k => (es[k]?).map (fun e => (e.row - e.block / blockcols * bs) % S)⟩
        ⟨es.length, fun k => (es[k]?).map (fun e => (e.col - e.block % blockcols * bs) % S)⟩
        ⟨es.length, fun k => (es[k]?).map (fun e => e.val)⟩ := by
      unfold blkEnts3
      rw [List.getElem?_eq_getElem hk', Option.getD_some]
      constructor <;>
      · intro j hj
        have hj' : j < (runs Element.block es)[k].length := by simpa using hj
        have := runs_getElem Element.block es k hk' j hj'
        have hlt := (List.getElem?_eq_some_iff.1 this).1
        exact ⟨hlt, by simp [this]⟩
    have hB : blkEnts3 S bs blockcols es k = ((runs Element.block es)[k]).map
        (fun e => ⟨(e.row - e.block / blockcols * bs) % S, (e.col - e.block % blockcols * bs) % S, e.val⟩) := by
      unfold blkEnts3; rw [List.getElem?_eq_getElem hk', Option.getD_some]
    have hrow : ∀ e ∈ blkEnts3 S bs blockcols es k, e.row < bs := by
      intro e he
      rw [hB] at he
      obtain ⟨a, ha, rfl⟩ := List.mem_map.1 he
      have h1 := H.inR a (hm a ha).1
      have h2 := hstep (a.block / blockcols)
      have h3 := Nat.mod_le (a.row - a.block / blockcols * bs) S
      simp only at h1 ⊢
      omega
    rw [spmvCoo_spec R (by rw [hB, List.length_map]; omega) x _ (by
        intro e he
        rw [hB] at he
        obtain ⟨a, ha, rfl⟩ := List.mem_map.1 he
        have h1 := H.inC a (hm a ha).1
        have h2 := hx a (hm a ha).1
        have h3 := Nat.mod_le (a.col - a.block % blockcols * bs) S
        simp only at h1 ⊢
        rw [← (hm a ha).2]
        omega) (by
        intro e he
        have := hrow e he
        omega)]
    congr 2
    exact inOrder_winAct _ bs hrow yo _ x y
  · intro k hk e he
    have hk' : k < (runs Element.block es).length := by simpa using hk
    have hm := (run_mem Element.block es k hk').1
    rw [blkEnts_eq _ _ _ hk'] at he
    obtain ⟨a, ha, rfl⟩ := List.mem_map.1 he
    have h1 := H.inR a (hm a ha).1
    have h2 := hstep (a.block / blockcols)
    have h3 := hstep ((runKeys Element.block es)[k] / blockcols)
    simp only at h1 ⊢
    omega
  · intro k hk r t _
    have hk' : k < (runs Element.block es).length := by simpa using hk
    have hm := (run_mem Element.block es k hk').1
    have e : shift 0 ((((runKeys Element.block es)[k]?).getD 0) % blockcols * bs) (blkEnts3 S bs blockcols es k) =
        blkEnts (· * bs) blockcols es k := by
      rw [List.getElem?_eq_getElem hk, Option.getD_some, runKeys_getElem _ _ _ hk', blkEnts_eq _ _ _ hk']
      unfold blkEnts3 shift
      rw [List.getElem?_eq_getElem hk', Option.getD_some, List.map_map]
      refine List.map_congr_left (fun a ha => ?_)
      have h1 := H.inR a (hm a ha).1
      have h2 := H.inC a (hm a ha).1
      have h3 := hstep (a.block / blockcols)
      have h4 := hstep (a.block % blockcols)
      simp only [Function.comp]
      rw [← (hm a ha).2, Nat.mod_eq_of_lt (show a.row - a.block / blockcols * bs < S by omega),
        Nat.mod_eq_of_lt (show a.col - a.block % blockcols * bs < S by omega), Nat.add_sub_cancel' h2.1, Nat.zero_add]
    rw [e]
    exact total_accumulate x t _

end
end Gsb
