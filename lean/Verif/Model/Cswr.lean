import Verif.Model.Coo
/-
Model of the wide-row format: include/matrix/cswr.h.
-/
namespace Gsb
variable {ε T : Type} [NZ ε T]

/-- `Cswr<T,IT,SIT>` — cswr.h:16-22. -/
structure Cswr (T : Type) where
  val : Buf T
  row : Buf Nat
  col : Buf Nat
  wrowPtr : Buf Nat
  rows : Nat
  columns : Nat
  nwrows : Nat
  width : Nat
  nnz : Nat

/-- One iteration of the copying loop — cswr.h:67-76.  `S` is the number of values of `SIT`. -/
def cswrFillStep (M S width : Nat) (es : List ε) (i : Nat) (s : Buf Nat × Buf Nat × Buf Nat × Buf T) :
    C (Buf Nat × Buf Nat × Buf Nat × Buf T) := do
  let e ← rd es i
  let wr ← cdiv (NZ.toEnt e).row width
  let wp ← incr M s.1 (addM M wr 1)
  let lr ← cmod (NZ.toEnt e).row width
  let r ← s.2.1.put i (lr % S)
  let c ← s.2.2.1.put i (NZ.toEnt e).col
  let v ← s.2.2.2.put i (NZ.toEnt e).val
  let ri ← r.get i
  cassert (decide (ri < width))
  .ok (wp, r, c, v)

/-- `Coo_to_Cswr` — cswr.h:46-82.  `nwrows = (rows + width - 1) / width` is computed in the index
type and divides by zero for `width = 0`. -/
def cooToCswr (M S : Nat) (es : List ε) (rows columns width : Nat) : C (Cswr T × List ε) := do
  let nwrows ← cdiv (subM M (addM M rows width) 1) width
  let es' := sortTripletsWide width es
  let s ← forLoop 0 es'.length
    (Buf.filled (addM M nwrows 1) 0, (Buf.uninit es'.length : Buf Nat), (Buf.uninit es'.length : Buf Nat),
      (Buf.uninit es'.length : Buf T)) (cswrFillStep M S width es')
  let wp ← prefixSum M s.1 nwrows
  let t ← wp.get nwrows
  cassert (t == es'.length)
  .ok (⟨s.2.2.2, s.2.1, s.2.2.1, wp, rows, columns, nwrows, width, es'.length⟩, es')

/-- One iteration of `Cswr::spmv` — cswr.h:29-38. -/
def Cswr.spmvRow [Add T] [Mul T] (M : Nat) (A : Cswr T) (x : Buf T) (i : Nat) (y : Buf T) : C (Buf T) := do
  let st ← A.wrowPtr.get i
  let en ← A.wrowPtr.get (i + 1)
  spmvCoo A.val A.row A.col st (subM M en st) x 0 y (mulM M A.width i)

/-- `Cswr::spmv` — cswr.h:26-40, iterations run in order. -/
def Cswr.spmv [Add T] [Mul T] (M : Nat) (A : Cswr T) (x y : Buf T) : C (Buf T) :=
  forLoop 0 A.nwrows y (A.spmvRow M x)

end Gsb
