import Verif.Spec.Readback
import Verif.Model.Cgbr
/-
What the blocks of a constructed `Cgbr` denote: reading them back into (row, column, value) entries.
Specifications, as in `Spec/Readback.lean`.
-/
namespace Gsb
variable {T : Type}

/-- Every position of a dense block, zeros included, placed at row `ro`, column `co`. -/
def denseRead (A : Dense T) (ro co : Nat) (acc : List (Ent T)) : C (List (Ent T)) :=
  forLoop 0 A.rows acc fun i acc =>
    forLoop 0 A.columns acc fun j acc => do
      let v ← A.val.get (i * A.columns + j)
      .ok (acc ++ [⟨ro + i, co + j, v⟩])

def MatrixBlock.read (b : MatrixBlock T) (ro co : Nat) (acc : List (Ent T)) : C (List (Ent T)) :=
  match b with
  | .coo A => cooRead A.I A.J A.val 0 A.nnz ro co acc
  | .csr A => csrRead A.rowPtr A.colInd A.val 0 A.rows ro co acc
  | .dense A => denseRead A ro co acc

/-- Block `k` of block-row `br` lies at the offsets of its block-row and block-column. -/
def Cgbr.read (A : Cgbr T) : C (List (Ent T)) :=
  forLoop 0 A.base.blockrows [] fun br acc => do
    let lo ← A.base.blockrowPtr.get br
    let hi ← A.base.blockrowPtr.get (br + 1)
    forLoop lo hi acc fun k acc => do
      let blk ← A.base.blocks.get k
      let bc ← A.base.blockcolInd.get k
      let ro ← rd A.base.offR br
      let co ← rd A.base.offC bc
      blk.read ro co acc

end Gsb
