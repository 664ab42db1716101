import Verif.Model.Csbr
import Verif.Model.Cswr
/-
What the arrays of a constructed matrix denote: reading them back into (row, column, value) entries.
These are specifications (the library has no such functions); they read the arrays in the way the format
is documented.
-/
namespace Gsb
variable {T : Type}

/-- The entries of CSR arrays starting at `base`, of a matrix placed at row `ro`, column `co`. -/
def csrRead (rp ci : Buf Nat) (v : Buf T) (base rows ro co : Nat) (acc : List (Ent T)) : C (List (Ent T)) :=
  forLoop 0 rows acc fun i acc => do
    let lo ← rp.get i
    let hi ← rp.get (i + 1)
    forLoop lo hi acc fun j acc => do
      let vj ← v.get (base + j)
      let c ← ci.get (base + j)
      .ok (acc ++ [⟨ro + i, co + c, vj⟩])

/-- The entries of `nnz` COO triples starting at `base`, of a matrix placed at row `ro`, column `co`. -/
def cooRead (ri ci : Buf Nat) (v : Buf T) (base nnz ro co : Nat) (acc : List (Ent T)) : C (List (Ent T)) :=
  forLoop 0 nnz acc fun j acc => do
    let r ← ri.get (base + j)
    let c ← ci.get (base + j)
    let vj ← v.get (base + j)
    .ok (acc ++ [⟨ro + r, co + c, vj⟩])

def Csr.read (A : Csr T) : C (List (Ent T)) := csrRead A.rowPtr A.colInd A.val 0 A.rows 0 0 []

def Csr2.read (A : Csr2 T) : C (List (Ent T)) := csrRead A.rowPtr A.dataIndex A.dataVal 0 A.rows 0 0 []

def Coo.read (A : Coo T) : C (List (Ent T)) := cooRead A.I A.J A.val 0 A.nnz 0 0 []

/-- Wide row `i` holds rows `i * width, …`; its stored rows are relative. -/
def Cswr.read (A : Cswr T) : C (List (Ent T)) :=
  forLoop 0 A.nwrows [] fun i acc => do
    let lo ← A.wrowPtr.get i
    let hi ← A.wrowPtr.get (i + 1)
    cooRead A.row A.col A.val lo (hi - lo) (i * A.width) 0 acc

/-- Block `k` of block-row `br` is CSR, at the offsets of its block-row and block-column. -/
def Csbr.read (A : Csbr T) : C (List (Ent T)) :=
  forLoop 0 A.blockrows [] fun br acc => do
    let lo ← A.blockrowPtr.get br
    let hi ← A.blockrowPtr.get (br + 1)
    forLoop lo hi acc fun k acc => do
      let blk ← A.blocks.get k
      let bc ← A.blockcolInd.get k
      let ro ← rd A.offR br
      let co ← rd A.offC bc
      csrRead blk.rowPtr A.colInd A.val blk.base blk.rows ro co acc

/-- As `Csbr.read`, but columns and row pointers are global. -/
def Csbr2.read (A : Csbr2 T) : C (List (Ent T)) :=
  forLoop 0 A.blockrows [] fun br acc => do
    let lo ← A.blockrowPtr.get br
    let hi ← A.blockrowPtr.get (br + 1)
    forLoop lo hi acc fun k acc => do
      let rp ← A.rowPtr.get k
      let ro ← rd A.offR br
      let re ← rd A.offR (br + 1)
      csrRead rp A.colInd A.val 0 (re - ro) ro 0 acc

/-- Blocks of `blockSize × blockSize`, each a run of COO triples with relative indices. -/
def Csbr3.read (A : Csbr3 T) : C (List (Ent T)) :=
  forLoop 0 A.blockrows [] fun br acc => do
    let lo ← A.blockrowPtr.get br
    let hi ← A.blockrowPtr.get (br + 1)
    forLoop lo hi acc fun k acc => do
      let bc ← A.blockcolInd.get k
      let s ← A.blockPtr.get k
      let e ← A.blockPtr.get (k + 1)
      cooRead A.rowInd A.colInd A.val s (e - s) (br * A.blockSize) (bc * A.blockSize) acc

end Gsb
