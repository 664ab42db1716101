import Verif.Model.Csr
import Verif.Model.Coo
import Verif.Model.Cswr
import Verif.Model.Csbr
import Verif.Model.Cgbr
import Verif.Model.Broken
/-
What the library prints about a matrix: `show`, `print_info`, `partition_dump`, and the program src/test/visual.cpp.
-/
namespace Gsb
variable {T : Type}

/-- What `show` prints, without the layout of the numbers. -/
inductive ShowTok (T : Type) where
  /-- "Printing a matrix with more than 20 … is a bad idea." — generic/coo.h:90, csr.1.h:114 -/
  | tooLarge
  /-- "(row, column, value)" and a newline — generic/coo.h:96-99 -/
  | entry (row col : Nat) (v : T)
  /-- the index that starts a line — csr.1.h:120 -/
  | rowHead (i : Nat)
  /-- "(column,value)" and a tab — csr.1.h:126-127 -/
  | cell (col : Nat) (v : T)
  /-- a newline — generic/coo.h:101, csr.1.h:129 -/
  | newline
  /-- "index: value" and a newline — test/utils.h:25 -/
  | item (i : Nat) (v : T)
  /-- the title of a section — visual.cpp:35, 41, 44, 49 -/
  | title (s : String)
deriving DecidableEq

/-- `show(COOTYPE const&)` — generic/coo.h:85-102.  `get i` stands for `get_row_index(i)`, `get_column_index(i)` and
`get_value(i)`; `nonzeros()` returns the member `nnz` in all the types that have it. -/
def showCoo (nnz : Nat) (get : Nat → C (Ent T)) : C (List (ShowTok T)) :=
  if nnz > 20 then .ok [.tooLarge]
  else do
    let out ← forLoop 0 nnz ([] : List (ShowTok T)) fun i out => do
      let e ← get i
      .ok (out ++ [.entry e.row e.col e.val])
    .ok (out ++ [.newline])

/-- The getters of `Coo` — coo.1.h:44-46. -/
def Coo.ent (A : Coo T) (i : Nat) : C (Ent T) := do
  let r ← A.I.get i
  let c ← A.J.get i
  let v ← A.val.get i
  .ok ⟨r, c, v⟩

/-- `show` of a `Coo` — generic/coo.h:85-102 with coo.1.h:44-46. -/
def Coo.show (A : Coo T) : C (List (ShowTok T)) := showCoo A.nnz A.ent

/-- `show` of a `Coo2` or `Coo3` — generic/coo.h:85-102 with coo.2.h:21-23, coo.3.h:21-23. -/
def showNonzeros {ε : Type} [NZ ε T] (es : List ε) : C (List (ShowTok T)) :=
  showCoo es.length fun i => do
    let e ← rd es i
    .ok (NZ.toEnt e)

/-- One line of `show(Csr const&)` — csr.1.h:118-130. -/
def showCsrRow (A : Csr T) (i : Nat) (out : List (ShowTok T)) : C (List (ShowTok T)) := do
  let lo ← A.rowPtr.get i
  let hi ← A.rowPtr.get (i + 1)
  let out ← forLoop lo hi (out ++ [.rowHead i]) fun k out => do
    let c ← A.colInd.get k
    let v ← A.val.get k
    .ok (out ++ [.cell c v])
  .ok (out ++ [.newline])

/-- `show(Csr const&)` — csr.1.h:109-132. -/
def Csr.show (A : Csr T) : C (List (ShowTok T)) :=
  if A.rows > 20 then .ok [.tooLarge]
  else forLoop 0 A.rows [] (showCsrRow A)

/-- `show(T * x, int size)` — test/utils.h:21-27. -/
def showVector (y : Buf T) (size : Nat) : C (List (ShowTok T)) :=
  forLoop 0 size [] fun i out => do
    let v ← y.get i
    .ok (out ++ [.item i v])

/-! ### print_info -/

/-- A line of `print_info`, without the layout of the numbers. -/
inductive InfoTok where
  /-- "CSR matrix : … rows, … non-zeros" — generic/csr.h:42 -/
  | csr (rows nnz : Nat)
  /-- "Cswr matrix : … rows in … groups of …, … non-zeros" — cswr.h:106-111 -/
  | cswr (rows groups width nnz : Nat)
  | title (s : String)
  /-- "… rows x … columns" -/
  | dims (rows columns : Nat)
  /-- "… block-rows x … block-columns" -/
  | grid (blockrows blockcols : Nat)
  /-- "… x … blocks of size …" — csbr.3.h:146-149 -/
  | squares (blockrows blockcols size : Nat)
  /-- "… non-zeros in … blocks" -/
  | fill (nnz blocks : Nat)
  /-- "…% non-zeros" and "…% non-zero blocks": `100 * (float) n / ((float) a * (float) b)` -/
  | percent (n a b : Nat)
  /-- "Balanced block-rows" or "Unbalanced block-rows" — generic/gsb.h:68-69 -/
  | balanced (b : Bool)
  /-- "Blocks : … COO, … CSR, … CSR (parallel), … dense" — generic/gsb.h:70-73 -/
  | blocks (coo csr par dense : Nat)
  /-- "Non-Zeros : … COO, … CSR, … CSR (parallel), … dense" — generic/gsb.h:74-77 -/
  | nonzeros (coo csr par dense : Nat)
deriving DecidableEq

/-- `print_info(CSRTYPE const&)` of a `Csr` — generic/csr.h:39-43. -/
def Csr.printInfo (A : Csr T) : C (List InfoTok) := do
  let n ← A.nonzeros
  .ok [.csr A.rows n]

/-- The same of a `Csr2`. -/
def Csr2.printInfo (A : Csr2 T) : C (List InfoTok) := do
  let n ← A.nonzeros
  .ok [.csr A.rows n]

/-- `print_info(Cswr)` — cswr.h:103-112. -/
def Cswr.printInfo (A : Cswr T) : List InfoTok := [.cswr A.rows A.nwrows A.width A.nnz]

/-- The six lines of csbr.h:353-358, csbr.2.h:209-214 and bcsr.h:189-194. -/
def infoBlocked (name : String) (rows columns blockrows blockcols nnz nnzblocks : Nat) : List InfoTok :=
  [.title name, .dims rows columns, .grid blockrows blockcols, .fill nnz nnzblocks, .percent nnz rows columns,
    .percent nnzblocks blockrows blockcols]

/-- `print_info(Csbr const&)` — csbr.h:350-359. -/
def Csbr.printInfo (A : Csbr T) : List InfoTok :=
  infoBlocked "CSBR matrix :" A.rows A.columns A.blockrows A.blockcols A.nnz A.nnzblocks

/-- `print_info(Csbr2 const&)` — csbr.2.h:206-215. -/
def Csbr2.printInfo (A : Csbr2 T) : List InfoTok :=
  infoBlocked "CSBR2 matrix : " A.rows A.columns A.blockrows A.blockcols A.nnz A.nnzblocks

/-- `print_info(Csbr3 const&)` — csbr.3.h:138-156. -/
def Csbr3.printInfo (A : Csbr3 T) : List InfoTok :=
  [.title "Matrix info : ", .dims A.rows A.columns, .squares A.blockrows A.blockcols A.blockSize, .fill A.nnz A.nnzblocks,
    .percent A.nnz A.rows A.columns, .percent A.nnzblocks A.blockrows A.blockcols]

/-- `print_info(GSB<T,IT,SIT>)` — generic/gsb.h:49-77; `BLOCK_COO = 0`, `BLOCK_CSR = 1`, `BLOCK_DENSE = 2`,
`BLOCK_CSR_PAR = 4`.  The argument is a copy of the object; copying and destroying it touches none of its arrays. -/
def Gbr.printInfo {β : Type} (A : Gbr β) (balanced : Bool) : C (List InfoTok) := do
  let b0 ← A.typeBlocks.get 0
  let b1 ← A.typeBlocks.get 1
  let b4 ← A.typeBlocks.get 4
  let b2 ← A.typeBlocks.get 2
  let n0 ← A.typeNnz.get 0
  let n1 ← A.typeNnz.get 1
  let n4 ← A.typeNnz.get 4
  let n2 ← A.typeNnz.get 2
  .ok (infoBlocked "Matrix info : " A.rows A.columns A.blockrows A.blockcols A.nnz A.nnzblocks ++
    [.balanced balanced, .blocks b0 b1 b4 b2, .nonzeros n0 n1 n4 n2])

/-- `print_info` of a `Cgbr`. -/
def Cgbr.printInfo (A : Cgbr T) : C (List InfoTok) := A.base.printInfo A.balanced

/-- `print_info` of a `Cgbr2`, whose member `balanced` is never assigned: `g` is what it holds. -/
def Cgbr2.printInfo (A : Cgbr2 T) (g : Bool) : C (List InfoTok) := A.base.printInfo g

/-! ### partition_dump -/

/-- One line of `partition_dump` — partition.h:54-62: the number of the block-row, `nchunks()` (partition.h:17) and the
differences of the boundaries. -/
def dumpLine (M : Nat) (partition : List (List Nat)) (br : Nat) : C (Nat × Nat × List Nat) := do
  let chunks ← rd partition br
  let sizes ← forLoop 1 chunks.length ([] : List Nat) fun i out => do
    let a ← rd chunks i
    let b ← rd chunks (i - 1)
    .ok (out ++ [subM M a b])
  .ok (br, subM M chunks.length 1, sizes)

/-- `partition_dump` — partition.h:51-63. -/
def partitionDump (M : Nat) (partition : List (List Nat)) (blockrows : Nat) : C (List (Nat × Nat × List Nat)) :=
  forLoop 0 blockrows [] fun br out => do
    let l ← dumpLine M partition br
    .ok (out ++ [l])

/-! ### visual -/

/-- visual.cpp:32-50: from the arrays to the product, and what is printed.  The constants of the program are parameters;
`Coo_to_Coo` copies the arrays in order.  Returns the sorted triplets too. -/
def visualFirst [Add T] [Mul T] [Zero T] (M : Nat) (es : List (Triplet T)) (rows columns : Nat) (x : Buf T) :
    C (List (ShowTok T) × List (Triplet T)) := do
  let s1 ← showNonzeros es
  let B ← cooToCsr M es rows columns
  let s2 ← showNonzeros B.2
  let s3 ← B.1.show
  let y ← B.1.spmv x 0 (Buf.filled rows 0) 0
  let s4 ← showVector y rows
  .ok ([.title "A (COO)"] ++ s1 ++ [.title "A (sorted)"] ++ s2 ++ [.title "B (CSR)"] ++ s3 ++ [.title "B * x"] ++ s4, B.2)

/-- `main` of visual — visual.cpp:12-71.  `D` (a Coo3) keeps the entries in their first order; its elements' `block` is not
set yet, and `junk` is what is there.  `after` and `stdSort` are as in `cooToCsbrCoo2`. -/
def visualMain [Add T] [Mul T] [Zero T] (M workers : Nat) (stdSort : Nat → Nat → List (Triplet T) → C (List (Triplet T)))
    (after : List (Triplet T)) (junk : Triplet T → Nat) (es : List (Triplet T)) (rows columns : Nat) (x : Buf T)
    (offR : List Nat) (blockrows : Nat) (offC : List Nat) (blockcols : Nat) : C (List (ShowTok T)) := do
  let r ← visualFirst M es rows columns x
  let A ← cooToCsbrCoo2 M workers stdSort r.2 after rows columns offR blockrows offC blockcols
  let y ← A.1.spmv M x (Buf.filled rows 0)
  let s5 ← showVector y rows
  let E ← cooToCsbr2 M (es.map fun e => (⟨e.row, e.col, e.val, junk e⟩ : Element T)) rows columns offR blockrows offC blockcols
  let y ← E.1.spmv M x (Buf.filled rows 0)
  let s6 ← showVector y rows
  .ok (r.1 ++ [.title "C (CSBR) * x"] ++ s5 ++ [.title "E (CSBR(2)) * x"] ++ s6)

end Gsb
