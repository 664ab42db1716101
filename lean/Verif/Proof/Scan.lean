import Verif.Model.Csbr
import Verif.Proof.BlockUtil
import Verif.Proof.Coo
namespace Gsb
variable {α β σ T : Type}

/-- Total correctness of the block-scanning loop from closed forms of its state. -/
theorem scan_spec {M : Nat} (es : List α) (key : α → Nat) (blk : Nat → C Nat)
    (newBlock : Nat → Nat → Nat → σ → C σ) (element : Nat → Nat → σ → C σ)
    (hM : es.length < M) (hkey : ∀ e ∈ es, key e < M - 1)
    (hblk : ∀ i (h : i < es.length), blk i = .ok (key es[i])) (S : Nat → σ)
    (hnew : ∀ i (hi : i < es.length), (∀ b, (es.take i).getLast? = some b → key b ≠ key es[i]) →
      ∃ s', newBlock i (runs key (es.take i)).length (key es[i]) (S i) = .ok s' ∧
        element i (runs key (es.take i)).length s' = .ok (S (i + 1)))
    (hsame : ∀ i (hi : i < es.length) b, (es.take i).getLast? = some b → key b = key es[i] →
      element i ((runs key (es.take i)).length - 1) (S i) = .ok (S (i + 1))) :
    ∃ r : Scan σ, forLoop 0 es.length (⟨M - 1, M - 1, S 0⟩ : Scan σ) (scanStep M blk newBlock element) = .ok r ∧
      r.st = S es.length := by
  let F : Nat → Scan σ := fun i => match (es.take i).getLast? with
    | none => ⟨M - 1, M - 1, S i⟩
    | some b => ⟨(runs key (es.take i)).length - 1, key b, S i⟩
  refine ⟨F es.length, forLoop_closed' F (Nat.zero_le _) (by simp [F]) rfl ?_, ?_⟩
  · intro i _ hi
    have hF1 : F (i + 1) = ⟨(runs key (es.take (i + 1))).length - 1, key es[i], S (i + 1)⟩ := by
      simp only [F, getLast?_take hi]
    rw [hF1]
    unfold scanStep
    rw [hblk i hi, ok_bind]
    have hrl := runs_length_le key (es.take i)
    have hil : (es.take i).length = i := by simp; omega
    cases hb : (es.take i).getLast? with
    | none =>
      have hF : F i = ⟨M - 1, M - 1, S i⟩ := by simp only [F, hb]
      rw [hF]
      have hk := hkey es[i] (List.getElem_mem hi)
      have hnil : es.take i = [] := by simpa using hb
      rw [if_pos (by simp only; omega)]
      obtain ⟨s', e1, e2⟩ := hnew i hi (by simp [hb])
      have h0 : (runs key (es.take i)).length = 0 := by rw [hnil]; rfl
      rw [h0] at e1 e2
      have ha : addM M (M - 1) 1 = 0 := by unfold addM; rw [Nat.sub_add_cancel (by omega), Nat.mod_self]
      simp only [ha]
      rw [e1, ok_bind, ok_bind]
      simp only
      rw [e2, ok_bind, take_succ_eq hi, runs_new key _ _ (by simp [hb]), hnil]
      simp [runs]
    | some b =>
      have hF : F i = ⟨(runs key (es.take i)).length - 1, key b, S i⟩ := by simp only [F, hb]
      rw [hF]
      have hpos : 0 < (runs key (es.take i)).length := runs_length_pos key (by
        intro h; rw [h] at hb; simp at hb)
      by_cases hk : key b = key es[i]
      · rw [if_neg (by simp [hk]), ok_bind]
        simp only
        rw [hsame i hi b hb hk, ok_bind]
        obtain ⟨G0, g, e1, e2, -, -⟩ := runs_same key _ es[i] b hb hk
        rw [take_succ_eq hi, e1, e2]
        simp [hk]
      · rw [if_pos (by simpa using fun h => hk h.symm)]
        have hn : ∀ c, (es.take i).getLast? = some c → key c ≠ key es[i] := by
          intro c hc; rw [hb] at hc; simp at hc; subst hc; exact hk
        obtain ⟨s', e1, e2⟩ := hnew i hi hn
        simp only
        rw [addM_eq (by omega), Nat.sub_add_cancel (by omega), e1, ok_bind, ok_bind]
        simp only
        rw [e2, ok_bind, take_succ_eq hi, runs_new key _ _ hn]
        simp
  · simp only [F]; split <;> rfl

/-- Start of run `k`, for a list of runs. -/
def startOf (G : List (List α)) (k : Nat) : Nat := ((G.take k).map List.length).sum

theorem startOf_runs (key : α → Nat) (l : List α) (k : Nat) : startOf (runs key l) k = runStart key l k := rfl

theorem startOf_length (G : List (List α)) : startOf G G.length = G.flatten.length := by
  simp [startOf, List.length_flatten]

/-- The array of per-block data determined by the runs seen so far. -/
def blkBuf (n : Nat) (key : α → Nat) (F : Nat → Nat → List α → β) (G : List (List α)) : Buf β :=
  ⟨n, fun k => (G[k]?).map (fun g => F (runKey key g) (startOf G k) g)⟩

theorem blkBuf_nil (n : Nat) (key : α → Nat) (F : Nat → Nat → List α → β) :
    blkBuf n key F [] = Buf.uninit n := by simp [blkBuf, Buf.uninit]

/-- Starting a new block and adding its first element. -/
theorem blkBuf_new {n : Nat} {key : α → Nat} {F : Nat → Nat → List α → β} {G : List (List α)} {a : α}
    (hn : G.length < n) :
    ∃ B', (blkBuf n key F G).put G.length (F (key a) G.flatten.length []) = .ok B' ∧
      B'.get G.length = .ok (F (key a) G.flatten.length []) ∧
      B'.put G.length (F (key a) G.flatten.length [a]) = .ok (blkBuf n key F (G ++ [[a]])) := by
  refine ⟨_, Buf.put_ok hn, Buf.get_ok hn (by simp), ?_⟩
  rw [Buf.put_ok (by exact hn)]
  congr 1
  refine Buf.ext' rfl (fun k => ?_)
  simp only [blkBuf]
  by_cases hk : k = G.length
  · subst hk
    simp [runKey, startOf, List.length_flatten]
  · simp only [hk, if_false]
    by_cases h2 : k < G.length
    · rw [List.getElem?_append_left h2]
      simp only [startOf, List.take_append_of_le_length (Nat.le_of_lt h2)]
    · rw [List.getElem?_eq_none (by omega), List.getElem?_eq_none (by simp; omega)]; rfl

/-- Adding an element to the last block. -/
theorem blkBuf_same {n : Nat} {key : α → Nat} {F : Nat → Nat → List α → β} {G0 : List (List α)} {g : List α} {a : α}
    (hn : G0.length < n) (hg : g ≠ []) :
    (blkBuf n key F (G0 ++ [g])).get G0.length = .ok (F (runKey key g) (startOf G0 G0.length) g) ∧
    (blkBuf n key F (G0 ++ [g])).put G0.length (F (runKey key g) (startOf G0 G0.length) (g ++ [a])) =
      .ok (blkBuf n key F (G0 ++ [g ++ [a]])) := by
  have hk' : runKey key (g ++ [a]) = runKey key g := by
    cases g with
    | nil => exact absurd rfl hg
    | cons c t => simp [runKey]
  constructor
  · refine Buf.get_ok hn ?_
    simp [blkBuf, startOf]
  · rw [Buf.put_ok (by exact hn)]
    congr 1
    refine Buf.ext' rfl (fun k => ?_)
    simp only [blkBuf]
    by_cases hk : k = G0.length
    · subst hk
      simp [startOf, hk']
    · simp only [hk, if_false]
      by_cases h2 : k < G0.length
      · rw [List.getElem?_append_left h2, List.getElem?_append_left h2]
        simp only [startOf, List.take_append_of_le_length (Nat.le_of_lt h2)]
      · rw [List.getElem?_eq_none (by simp; omega), List.getElem?_eq_none (by simp; omega)]; rfl

/-- Updating every cell of an array in turn. -/
theorem mapBuf_loop {n : Nat} (G : List α) (f : Nat → α → β) (f' : Nat → α → β) (upd : β → C β)
    (hG : G.length = n) (h : ∀ k (hk : k < G.length), upd (f k G[k]) = .ok (f' k G[k])) :
    forLoop 0 n (⟨n, fun k => (G[k]?).map (f k)⟩ : Buf β) (fun k b => do
      let a ← b.get k
      let a' ← upd a
      b.put k a') = .ok ⟨n, fun k => (G[k]?).map (f' k)⟩ := by
  refine forLoop_closed' (fun i => (⟨n, fun k => (G[k]?).map (if k < i then f' k else f k)⟩ : Buf β))
    (Nat.zero_le _) (by simp) ?_ ?_
  · refine Buf.ext' rfl (fun k => ?_)
    simp only
    by_cases hk : k < n
    · simp [hk]
    · rw [List.getElem?_eq_none (by omega)]; rfl
  · intro i _ hi
    rw [Buf.get_ok (a := f i (G[i]'(by omega))) hi (by simp [show i < G.length by omega]), ok_bind, h i (by omega), ok_bind,
      Buf.put_ok hi]
    congr 1
    refine Buf.ext' rfl (fun k => ?_)
    simp only
    by_cases hk : k = i
    · subst hk; simp [show k < G.length by omega]
    · have : (k < i + 1) ↔ (k < i) := by omega
      simp [hk, this]

/-- The doubly nested loop over block-rows and their blocks visits the blocks in order. -/
theorem rowLoop (keys : List Nat) (g : Nat → Nat) (_hs : keys.Pairwise (fun a b => g a ≤ g b))
    (n : Nat) (hn : ∀ k ∈ keys, g k < n) (f : Nat → σ → C σ) (φ : Nat → σ)
    (hf : ∀ bi, bi < n → f bi (φ (keys.countP (fun k => decide (g k < bi)))) =
      .ok (φ (keys.countP (fun k => decide (g k < bi + 1))))) :
    forLoop 0 n (φ 0) f = .ok (φ keys.length) := by
  refine forLoop_closed' (fun bi => φ (keys.countP (fun k => decide (g k < bi)))) (Nat.zero_le _) ?_ ?_ ?_
  · simp
  · rw [countP_lt_all keys g n hn]
  · intro i _ hi; exact hf i hi

theorem rowLoop_inner (keys : List Nat) (g : Nat → Nat) (hs : keys.Pairwise (fun a b => g a ≤ g b))
    (bi : Nat) (f : Nat → σ → C σ) (φ : Nat → σ)
    (hf : ∀ k (h : k < keys.length), g keys[k] = bi → f k (φ k) = .ok (φ (k + 1))) :
    forLoop (keys.countP (fun k => decide (g k < bi))) (keys.countP (fun k => decide (g k < bi + 1)))
      (φ (keys.countP (fun k => decide (g k < bi)))) f =
      .ok (φ (keys.countP (fun k => decide (g k < bi + 1)))) := by
  refine forLoop_closed φ (countP_lt_mono keys g (by omega)) (fun k h1 h2 => ?_)
  have h3 : k < keys.length := Nat.lt_of_lt_of_le h2 List.countP_le_length
  exact hf k h3 (slice_eq keys g hs bi k h3 h1 h2)

theorem flatten_take_succ (G : List (List α)) (k : Nat) (hk : k < G.length) :
    (G.take (k + 1)).flatten = (G.take k).flatten ++ G[k] := by
  rw [take_succ_eq hk, List.flatten_append]; simp

end Gsb
