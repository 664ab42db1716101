import Verif.Model.Csr
import Verif.Model.Morton
/-
Models of the COO formats and kernel: include/spmv/coo.h, include/generic/coo.h,
include/matrix/coo.1.h, coo.2.h, coo.3.h, block_coo.1.h, block_coo.2.h.
-/
namespace Gsb
variable {ε T : Type} [NZ ε T]

/-- `spmv_coo(v, ri, ci, nnz, x, y)` — include/spmv/coo.h:4-13, called with the array pointers
advanced by `base` and the vectors by `xo`, `yo`.  The wrapper include/generic/coo.h:25-33 drops
two unused arguments and calls this. -/
def spmvCoo [Add T] [Mul T] (v : Buf T) (ri ci : Buf Nat) (base nnz : Nat)
    (x : Buf T) (xo : Nat) (y : Buf T) (yo : Nat) : C (Buf T) :=
  forLoop 0 nnz y fun i y => do
    let r ← ri.get (base + i)
    let vi ← v.get (base + i)
    let c ← ci.get (base + i)
    macc y (yo + r) vi x (xo + c)

/-- `spmv_coo(nonzeros, nnz, x, y)` — include/spmv/coo.h:15-23. -/
def spmvCooArray [Add T] [Mul T] (a : Buf ε) (nnz : Nat)
    (x : Buf T) (xo : Nat) (y : Buf T) (yo : Nat) : C (Buf T) :=
  forLoop 0 nnz y fun i y => do
    let e ← a.get i
    macc y (yo + (NZ.toEnt e).row) (NZ.toEnt e).val x (xo + (NZ.toEnt e).col)

/-- `Coo<T,IT,SIT>` — include/matrix/coo.1.h:11-17, and `BlockCoo` — block_coo.1.h:9-15. -/
structure Coo (T : Type) where
  I : Buf Nat
  J : Buf Nat
  val : Buf T
  nnz : Nat

/-- `Coo::spmv` — coo.1.h:56-59; `BlockCoo::spmv` — block_coo.1.h:33-36. -/
def Coo.spmv [Add T] [Mul T] (A : Coo T) (x : Buf T) (xo : Nat) (y : Buf T) (yo : Nat) : C (Buf T) :=
  spmvCoo A.val A.I A.J 0 A.nnz x xo y yo

/-- The copying loop — coo.1.h:25-30, block_coo.1.h:60-65, and generic/coo.h:47-48, 61-62, 75-76
through `set_point` (generic/coo.h:12-19) for a three-array target.  `S` is the number of values of
the small index type; assignments truncate. -/
def cooFill (S : Nat) (es : List ε) : C (Coo T) := do
  let s ← forLoop 0 es.length
    ((Buf.uninit es.length : Buf Nat), (Buf.uninit es.length : Buf Nat), (Buf.uninit es.length : Buf T))
    (fun i s => do
      let e ← rd es i
      let I ← s.1.put i ((NZ.toEnt e).row % S)
      let J ← s.2.1.put i ((NZ.toEnt e).col % S)
      let v ← s.2.2.put i (NZ.toEnt e).val
      .ok (I, J, v))
  .ok ⟨s.1, s.2.1, s.2.2, es.length⟩

/-- Constructor `Coo(Element*, nnz)` — coo.1.h:19-31: Morton sort in place, then copy (no range
check).  Returns the sorted array too. -/
def mkCoo (M S : Nat) (es : List ε) : C (Coo T × List ε) := do
  let es' := sortTripletsMorton M es
  let A ← cooFill S es'
  .ok (A, es')

/-- `Coo_to_Coo(BlockCoo*, NONZERO*, nnz)` — block_coo.1.h:44-68.  The check is made when the
index type is wider than the small type (`S < M`); `max_index = 1 << (8*sizeof(SIT)) = S` (the `int`
shift is defined for the 8- and 16-bit small types the library instantiates). -/
def cooToBlockCoo (M S : Nat) (es : List ε) : C (Coo T × List ε) := do
  let _ ← (if S < M then
    forLoop 0 es.length () (fun i _ => do
      let e ← rd es i
      cassert (decide ((NZ.toEnt e).row < S) && decide ((NZ.toEnt e).col < S)))
    else .ok ())
  let es' := sortTripletsMorton M es
  let A ← cooFill S es'
  .ok (A, es')

/-- `Coo_to_Coo(BlockCoo2*, NONZERO*, nnz)` — block_coo.2.h:33-54: check, copy truncated, then
Morton sort with keys computed *in the small type* (`bit_interleave<SIT>`). -/
def cooToBlockCoo2 (M S : Nat) (es : List ε) : C (List (Ent T)) := do
  let _ ← (if S < M then
    forLoop 0 es.length () (fun i _ => do
      let e ← rd es i
      cassert (decide ((NZ.toEnt e).row < S) && decide ((NZ.toEnt e).col < S)))
    else .ok ())
  let t ← forLoop 0 es.length (Buf.uninit es.length : Buf (Ent T)) (fun i t => do
      let e ← rd es i
      t.put i ⟨(NZ.toEnt e).row % S, (NZ.toEnt e).col % S, (NZ.toEnt e).val⟩)
  let l ← t.toList es.length
  .ok (sortTripletsMorton S l)

/-- `Coo_to_Coo` into a `Coo2`/`Coo3` from an array of non-zeros — generic/coo.h:68-80 with
`allocate` (coo.2.h:43-48, coo.3.h:43-48) and the setters (coo.2.h:26-28, coo.3.h:26-28). The three
field writes of one element are modelled as one. -/
def cooToCoo (es : List ε) : C (Buf (Ent T)) :=
  forLoop 0 es.length (Buf.uninit es.length) (fun i t => do
    let e ← rd es i
    t.put i (NZ.toEnt e))

end Gsb
