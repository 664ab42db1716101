import Verif.Spec.Heap
import Verif.Model.BlockUtil
import Verif.Model.Cgbr
/-
What the constructors allocate and what `release` gives back: include/matrix/*.h.  Only allocations and
releases are modelled here, with the sizes left out; what is stored in the arrays is the matter of the
other models.  `malloc` and `new` succeed.  `strict` is a property of the allocators (Spec/Heap.lean).
-/
namespace Gsb
variable {T : Type}

/-- Allocate one array by `new []`. -/
abbrev newArr : HeapM Nat := acquire .newArray

/-- `malloc` or `calloc`. -/
abbrev mallocP : HeapM Nat := acquire .malloc

/-! ### COO -/

/-- `allocate(Coo*)` — coo.1.h:66-72: `I`, `J`, `val`. -/
def Mem.coo : HeapM (Nat × Nat × Nat) := do
  let i ← newArr
  let j ← newArr
  let v ← newArr
  pure (i, j, v)

/-- `release(Coo&)` and `~Coo()` — coo.1.h:74-80 and 35-40: the same three. -/
def Mem.releaseCoo (strict : Bool) (a : Nat × Nat × Nat) : HeapM Unit := do
  dispose strict .newArray a.1
  dispose strict .newArray a.2.1
  dispose strict .newArray a.2.2

/-- A local variable of type `Coo`, filled, then released by `release`, then destroyed at the end of
its scope. -/
def Mem.cooReleased (strict : Bool) : HeapM Unit := do
  let a ← Mem.coo
  Mem.releaseCoo strict a
  Mem.releaseCoo strict a

/-- The same without the call of `release`. -/
def Mem.cooScope (strict : Bool) : HeapM Unit := do
  let a ← Mem.coo
  Mem.releaseCoo strict a

/-- `allocate` then `release` of Coo2 — coo.2.h:43-54 — and of Coo3 — coo.3.h:43-54: one array. -/
def Mem.coo23 (strict : Bool) : HeapM Unit := do
  let a ← newArr
  dispose strict .newArray a

/-- The tools release the elements of a `Coo3` by `free(A.elements)` — convert_blocked.cpp:101,
expanded.cpp:91, prepare.cpp:226. -/
def Mem.toolElements (strict : Bool) : HeapM Unit := do
  let a ← newArr
  dispose strict .malloc a

/-! ### CSR and variants -/

/-- `Coo_to_Csr(…, allocate)` of csr.1.h:82-89.  `given`: the arrays the caller has put in `A->val`, `A->col_ind`, used when
`allocate` is false. Result: `val`, `col_ind`, `row_ptr`. -/
def Mem.csr (allocate : Bool) (given : Nat × Nat) : HeapM (Nat × Nat × Nat) :=
  if allocate then do
    let v ← newArr
    let c ← newArr
    let r ← newArr
    pure (v, c, r)
  else do
    let r ← newArr
    pure (given.1, given.2, r)

/-- `release(Csr&)` — csr.1.h:137-142. -/
def Mem.releaseCsr (strict : Bool) (a : Nat × Nat × Nat) : HeapM Unit := do
  dispose strict .newArray a.1
  dispose strict .newArray a.2.2
  dispose strict .newArray a.2.1

/-- Csr2: csr.2.h:56-61, and release 84-88. -/
def Mem.csr2 (strict : Bool) : HeapM Unit := do
  let d ← newArr
  let r ← newArr
  dispose strict .newArray r
  dispose strict .newArray d

/-- CompRowCsr: crcsr.h:40-43, and release 104-110. -/
def Mem.crcsr (strict : Bool) : HeapM Unit := do
  let n ← newArr
  let r ← newArr
  let c ← newArr
  let v ← newArr
  dispose strict .newArray n
  dispose strict .newArray r
  dispose strict .newArray c
  dispose strict .newArray v

/-- Cswr: cswr.h:58-61, and release 115-121. -/
def Mem.cswr (strict : Bool) : HeapM Unit := do
  let v ← newArr
  let r ← newArr
  let c ← newArr
  let w ← newArr
  dispose strict .newArray v
  dispose strict .newArray r
  dispose strict .newArray c
  dispose strict .newArray w

/-- Csbr3: csbr.3.h:81-86, and release 162-170. -/
def Mem.csbr3 (strict : Bool) : HeapM Unit := do
  let brp ← newArr
  let bp ← newArr
  let bc ← newArr
  let r ← newArr
  let c ← newArr
  let v ← newArr
  dispose strict .newArray brp
  dispose strict .newArray bp
  dispose strict .newArray bc
  dispose strict .newArray r
  dispose strict .newArray c
  dispose strict .newArray v

/-! ### The arrays allocated once per block -/

/-- The loop over the elements of csbr.h:241-283 and csbr.2.h:121-150, as far as it allocates: an
array for each element whose block differs from the one before; `prev` starts as the largest index. -/
def Mem.perBlock (k : Kind) : Nat → List (Element T) → HeapM (List Nat)
  | _, [] => pure []
  | prev, e :: es =>
    if e.block ≠ prev then do
      let p ← acquire k
      let ps ← Mem.perBlock k e.block es
      pure (p :: ps)
    else Mem.perBlock k prev es

/-- Release the first `n` of the arrays — csbr.h:369-371, csbr.2.h:224-226.  Fewer than `n`: an
address that was never stored. -/
def Mem.releaseAll (strict : Bool) (k : Kind) : Nat → List Nat → HeapM Unit
  | 0, _ => pure ()
  | _ + 1, [] => fun _ => .error .notLive
  | n + 1, p :: ps => do
    dispose strict k p
    Mem.releaseAll strict k n ps

/-- `if (A.blockcol_offset == A.blockrow_offset) free(…) else …` — csbr.h:374-379, csbr.2.h:228-233. -/
def Mem.releaseOffsets (strict : Bool) (offR offC : Nat) : HeapM Unit :=
  if offC = offR then dispose strict .malloc offR
  else do
    dispose strict .malloc offC
    dispose strict .malloc offR

/-! ### Csbr -/

/-- `Coo_to_Csbr(Csbr*, Coo3*, …)` then `release(Csbr&)` — csbr.h:229-234, 265, 297 (`partition_init`,
partition.h:82-92) and 366-386.  `es` are the elements in block order, `n` is `count_blocks` of them; `offR`, `offC`
are the offset arrays the caller passed.  The partition is one allocation (with its vectors). -/
def Mem.csbr (strict : Bool) (M : Nat) (es : List (Element T)) (n offR offC : Nat) : HeapM Unit := do
  let blocks ← mallocP
  let bci ← mallocP
  let brp ← mallocP
  let v ← mallocP
  let c ← mallocP
  let rp ← Mem.perBlock .malloc (M - 1) es
  let _ ← newArr
  Mem.releaseAll strict .newArray n rp
  Mem.releaseOffsets strict offR offC
  dispose strict .malloc bci
  dispose strict .malloc blocks
  dispose strict .malloc brp
  dispose strict .malloc c
  dispose strict .malloc v

/-- The wrapper with block sizes: `Coo_to_Csbr(Csbr*, COOTYPE*, br_size, bc_size)` — csbr.h:305-338: the
offsets are made by `malloc`. -/
def Mem.csbrSized (strict : Bool) (M : Nat) (es : List (Element T)) (n : Nat) : HeapM Unit := do
  let offR ← mallocP
  let offC ← mallocP
  Mem.csbr strict M es n offR offC

/-! ### Csbr2 -/

/-- `Coo_to_Csbr(Csbr2*, …)` then `release(Csbr2&)` — csbr.2.h:113-116, 139 and 221-238. -/
def Mem.csbr2 (strict : Bool) (M : Nat) (es : List (Element T)) (n offR offC : Nat) : HeapM Unit := do
  let brp ← mallocP
  let rps ← mallocP
  let v ← mallocP
  let c ← mallocP
  let rp ← Mem.perBlock .malloc (M - 1) es
  Mem.releaseAll strict .malloc n rp
  Mem.releaseOffsets strict offR offC
  dispose strict .malloc brp
  dispose strict .malloc rps
  dispose strict .malloc c
  dispose strict .malloc v

/-- The same from `read_bin_array`-like offsets the caller made by `malloc`: one array for rows and columns
(`same`) or two. -/
def Mem.csbr2Malloc (strict : Bool) (same : Bool) (M : Nat) (es : List (Element T)) (n : Nat) : HeapM Unit := do
  let offR ← mallocP
  if same then Mem.csbr2 strict M es n offR offR
  else do
    let offC ← mallocP
    Mem.csbr2 strict M es n offR offC

/-- The wrapper with block sizes: csbr.2.h:193-197 calls the generic `Coo_to_Blocked`, gsb.h:15-44,
which makes the offsets by `new []`. -/
def Mem.csbr2Sized (strict : Bool) (M : Nat) (es : List (Element T)) (n : Nat) : HeapM Unit := do
  let offR ← newArr
  let offC ← newArr
  Mem.csbr2 strict M es n offR offC

/-! ### Cgbr -/

/-- The arrays of a block: `Coo_to_MatrixBlock` — cgbr.h:213-239 — with block_coo.1.h:77-79 (three
arrays), block_csr.h:47-49 (three), dense.h:135 (one). -/
def Mem.blockArrays : BlockChoice → Nat
  | .coo => 3
  | .csr => 3
  | .dense => 1

/-- How many arrays of a block its `release` gives back — cgbr.h:374-392 with block_coo.1.h:85-87 (three),
block_csr.h:80-82 (three), dense.h:145 (one). -/
def Mem.blockReleased : BlockChoice → Nat
  | .coo => 3
  | .csr => 3
  | .dense => 1

/-- `n` arrays by `new []`. -/
def Mem.arrays : Nat → HeapM (List Nat)
  | 0 => pure []
  | n + 1 => do
    let p ← newArr
    let ps ← Mem.arrays n
    pure (p :: ps)

/-- One call of `Coo_to_MatrixBlock` for each block, in the loop of cgbr.h:294-333; the list gives the
type chosen for each. -/
def Mem.blocks : List BlockChoice → HeapM (List (BlockChoice × List Nat))
  | [] => pure []
  | t :: ts => do
    let p ← Mem.arrays (Mem.blockArrays t)
    let ps ← Mem.blocks ts
    pure ((t, p) :: ps)

/-- `release(MatrixBlock*)` for the first `n` blocks — cgbr.h:401-405. -/
def Mem.releaseBlocks (strict : Bool) : Nat → List (BlockChoice × List Nat) → HeapM Unit
  | 0, _ => pure ()
  | _ + 1, [] => fun _ => .error .notLive
  | n + 1, b :: bs => do
    Mem.releaseAll strict .newArray (Mem.blockReleased b.1) b.2
    Mem.releaseBlocks strict n bs

/-- `Coo_to_Cgbr(Cgbr*, …)` then `release(Cgbr&)` — cgbr.h:287-289, 325, 344-349 and 396-410.  `types`
are the types chosen for the blocks met in the loop, `n` the value of `nnzblocks`, `balanced` what
`is_balanced` said.  The partition (partition.h:69-77, 94-100) is one allocation, with its vectors. -/
def Mem.cgbr (strict : Bool) (types : List BlockChoice) (n : Nat) (balanced : Bool) : HeapM Unit := do
  let blocks ← newArr
  let bci ← newArr
  let brp ← newArr
  let bs ← Mem.blocks types
  if balanced then do
    Mem.releaseBlocks strict n bs
    dispose strict .newArray blocks
    dispose strict .newArray brp
    dispose strict .newArray bci
  else do
    let part ← newArr
    dispose strict .newArray part
    Mem.releaseBlocks strict n bs
    dispose strict .newArray blocks
    dispose strict .newArray brp
    dispose strict .newArray bci

/-- The wrapper with block sizes — cgbr.h:354-361, gsb.h:22-23: offsets by `new []`. -/
def Mem.cgbrSized (strict : Bool) (types : List BlockChoice) (n : Nat) (balanced : Bool) : HeapM Unit := do
  let _ ← newArr
  let _ ← newArr
  Mem.cgbr strict types n balanced

/-! ### Cgbr2 -/

/-- The arrays of a block made by `BlockFactoryDefault::create` — blocks.h:88-118: coo.1.h:69-71,
blocks.h:29-31, dense.h:26. -/
def Mem.objectArrays : FactoryChoice → Nat
  | .coo => 3
  | .csr => 3
  | .csrPar => 3
  | .dense => 1

/-- What the destructor of a block object releases: `Coo` — coo.1.h:35-40 — and `BlockCsrSerial` (and
`BlockCsrParallel`) — blocks.h:46-51 — all their three arrays; `DenseSerial` and `DenseParallel` —
dense.h:16-62 — have none, so `val` is not released. -/
def Mem.destroyed : FactoryChoice → Nat
  | .coo => 3
  | .csr => 3
  | .csrPar => 3
  | .dense => 0

/-- The factory for every block: the object, by `new` — blocks.h:102, 107, 110, 115 — and its arrays. -/
def Mem.objects : List FactoryChoice → HeapM (List (FactoryChoice × Nat × List Nat))
  | [] => pure []
  | t :: ts => do
    let o ← acquire .newObject
    let p ← Mem.arrays (Mem.objectArrays t)
    let ps ← Mem.objects ts
    pure ((t, o, p) :: ps)

/-- `delete A.blocks[i]` for the first `n` blocks — cgbr.2.h:236-238: the (virtual) destructor, then the object. -/
def Mem.deleteObjects (strict : Bool) : Nat → List (FactoryChoice × Nat × List Nat) → HeapM Unit
  | 0, _ => pure ()
  | _ + 1, [] => fun _ => .error .notLive
  | n + 1, b :: bs => do
    Mem.releaseAll strict .newArray (Mem.destroyed b.1) b.2.2
    dispose strict .newObject b.2.1
    Mem.deleteObjects strict n bs

/-- `Cgbr2::create` with the default factory, then `release(Cgbr2&)` — cgbr.2.h:115-117, 158, 177 and
230-243. -/
def Mem.cgbr2 (strict : Bool) (types : List FactoryChoice) (n : Nat) : HeapM Unit := do
  let blocks ← newArr
  let bci ← newArr
  let brp ← newArr
  let bs ← Mem.objects types
  let part ← newArr
  dispose strict .newArray part
  Mem.deleteObjects strict n bs
  dispose strict .newArray blocks
  dispose strict .newArray brp
  dispose strict .newArray bci

/-! ### Permutation vectors and vectors -/

/-- pbench.cpp:52, 58-67 and 76: the vector is read (`malloc`, input.h:23); compiled with `INVPERM` it is inverted
(`new []`, permute.h:11) and freed; then `delete []`. -/
def Mem.pbench (strict inv : Bool) : HeapM Unit := do
  let p ← mallocP
  if inv then do
    let q ← newArr
    dispose strict .malloc p
    dispose strict .newArray q
  else dispose strict .newArray p

/-- permute.cpp:27, 34-43 and 96: the vector is read; with `INVPERM` inverted and the original freed; at
the end `free`. -/
def Mem.permuteTool (strict inv : Bool) : HeapM Unit := do
  let p ← mallocP
  if inv then do
    let q ← newArr
    dispose strict .malloc p
    dispose strict .malloc q
  else dispose strict .malloc p

end Gsb
