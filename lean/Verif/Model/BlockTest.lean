import Verif.Model.Drivers
import Verif.Model.Coo
import Verif.Model.Dense
/-
Model of the program src/test/block.cpp, which compares the formats used for blocks.  Its index type is
`int`, its small index type `uint16_t` (block.cpp:6-8).  Numbers below 2^31 are modelled; the 32-bit file
formats and the conversions are the ones of the other programs.
-/
namespace Gsb
variable {T τ : Type}

/-- `basename` of a name that does not end in a slash — block.cpp:59. -/
def baseName (s : Bytes) : Bytes := (s.reverse.takeWhile (· ≠ 47)).reverse

/-- Literal characters in a `scanf` format. -/
def stripText (lit s : Bytes) : Option Bytes := if lit.isPrefixOf s then some (s.drop lit.length) else none

/-- `sscanf(basename(argv[f]), "size%luratio%f%*s", &N, &nnzratio)` — block.cpp:59: what is stored in `N`,
and the characters of the number stored in `nnzratio`.  `%f` reads the same as `%lg`. -/
def scanLabel (s : Bytes) : C (Option Nat × Option Bytes) :=
  match stripText (chars "size") s with
  | none => .ok (none, none)
  | some s => do
    match ← scanLu s with
    | .got n s =>
      match stripText (chars "ratio") s with
      | none => .ok (some n, none)
      | some s => do
        match ← scanLg id s with
        | .got r _ => .ok (some n, some r)
        | _ => .ok (some n, none)
    | _ => .ok (none, none)

/-- The order of `sort_triplets_morton` for `int` indices: the 32 interleaved bits are compared as a signed
number — utils.h:175-194, 204-208. -/
def ltMortonInt {ε : Type} [NZ ε T] (a b : ε) : Bool :=
  decide (toInt32 (bitInterleave (2 ^ 32) (NZ.toEnt a).row (NZ.toEnt a).col) <
    toInt32 (bitInterleave (2 ^ 32) (NZ.toEnt b).row (NZ.toEnt b).col))

/-- `Coo_to_Coo(&coo_si, coo2.triplets, coo2.nnz)` — block.cpp:82 with block_coo.1.h:44-68. -/
def cooToBlockCooInt {ε : Type} [NZ ε T] (es : List ε) : C (Coo T × List ε) := do
  let _ ← forLoop 0 es.length () (fun i _ => do
      let e ← rd es i
      cassert (decide ((NZ.toEnt e).row < 2 ^ 16) && decide ((NZ.toEnt e).col < 2 ^ 16)))
  let es' := pssSort ltMortonInt es
  let A ← cooFill (2 ^ 16) es'
  .ok (A, es')

/-- `BENCH_AVG(EXP, ITERATIONS, t_avg)` — test/utils.h:11-20, `EXP` being a multiplication: the average
printed (with the method's name, which is in the head line) and `y`.  The clock is read once before and
once after the loop, so there is one lap for the whole loop. -/
def benchAvg (m : Machine T τ) (method : String) (f : Nat) (spmv : Buf T → C (Buf T)) (y : Buf T) : C ((String × τ) × Buf T) := do
  let y ← spmv y
  let y ← forLoop 0 m.iterations y fun _ y => spmv y
  .ok ((method, m.over (m.lap method f) m.iterations), y)

/-- What is printed about one file (of the ratio, the characters of the name that were converted), and the
vector `y` at the end. -/
structure BlockReport (T τ : Type) where
  size : Nat
  ratio : Bytes
  nonzeros : Nat
  times : List (String × τ)
  y : Buf T

/-- The body of the loop over the files after reading — block.cpp:63-120, for file number `f`.  The arrays of
`coo2` are sorted in place by the conversions to `BlockCoo`, `Csr` and `Csr2`. -/
def blockFormats [Add T] [Mul T] [Zero T] (m : Machine T τ) (f : Nat) (x y : Buf T) (es : List (Ent T)) (rows columns : Nat) :
    C (List (String × τ) × Buf T) := do
  let coo ← cooFill (2 ^ 32) es
  let t1 ← benchAvg m "COO" f (fun y => coo.spmv x 0 y 0) y
  let t2 ← benchAvg m "COO2" f (fun y => spmvCooArray (Buf.ofList es) es.length x 0 y 0) t1.2
  let si ← cooToBlockCooInt es
  let t3 ← benchAvg m "COO_SI" f (fun y => si.1.spmv x 0 y 0) t2.2
  let csr ← cooToCsr (2 ^ 32) si.2 rows columns
  let t4 ← benchAvg m "CSR" f (fun y => csr.1.spmvSerial x 0 y 0) t3.2
  let csr2 ← cooToCsr2 (2 ^ 32) csr.2 rows columns
  let t5 ← benchAvg m "CSR2" f (fun y => csr2.1.spmvSerial x y) t4.2
  let csi ← cooToBlockCsr (2 ^ 32) (2 ^ 16) csr2.2 rows columns
  let t6 ← benchAvg m "CSR_SI" f (fun y => csi.1.spmvSerial x 0 y 0) t5.2
  if rows * columns < 2 ^ 31 then do
    let dense ← cooToDense (2 ^ 32) csi.2 rows columns
    let t7 ← benchAvg m "DENSE" f (fun y => dense.spmv (2 ^ 32) x 0 y 0) t6.2
    .ok ([t1.1, t2.1, t3.1, t4.1, t5.1, t6.1, t7.1], t7.2)
  else .error .ub

/-- The loop over the files and the return — block.cpp:50-123.  `N`, `ratio`: what the variables `N` and
`nnzratio` hold (`none`: nothing yet); `coo`: whether the object `coo` has been given its arrays.  Its
destructor (coo.1.h:35-40) frees them on every return, so returning before that is undefined behaviour. -/
def blockLoop [Add T] [Mul T] [Zero T] (m : Machine T τ) (cv : Codec T) (conv : Bytes → T) (fuel : Nat) (fs : FS) :
    List String → Nat → Option Nat → Option Bytes → Bool → List (BlockReport T τ) → C (Nat × List (BlockReport T τ))
  | [], _, _, _, coo, out => if coo then .ok (0, out) else .error .ub
  | name :: rest, f, N, ratio, coo, out => do
    match ← driverRead cv conv fuel fs name with
    | none => if coo then .ok (1, out) else .error .ub
    | some (rows, columns, es) => do
      let l ← scanLabel (baseName (chars name))
      match (if l.1.isSome then l.1 else N), (if l.2.isSome then l.2 else ratio) with
      | some n, some q => do
        let r ← blockFormats m f (Buf.full columns (fun _ => 0)) (Buf.full rows (m.rnd name)) es rows columns
        blockLoop m cv conv fuel fs rest (f + 1) (some n) (some q) true (out ++ [⟨n, q, es.length, r.1, r.2⟩])
      | _, _ => .error .uninit

/-- `main` of block.cpp — block.cpp:22-124; `args` is `argv[1] …`. -/
def blockMain [Add T] [Mul T] [Zero T] (m : Machine T τ) (cv : Codec T) (conv : Bytes → T) (fuel : Nat) (fs : FS)
    (args : List String) : C (Nat × List (BlockReport T τ)) :=
  match args with
  | [] => .error .ub
  | _ => blockLoop m cv conv fuel fs args 1 none none false []

end Gsb
