import Verif.Model.Tools
import Verif.Model.Cswr
import Verif.Model.Cgbr
import Verif.Model.Bits
import Verif.Spec.Drivers
/-
Models of the benchmark programs of src/drivers, of include/test/bench.h and of the timing statistics of
src/common.cpp.  They are compiled with 32-bit indices, 16-bit small indices (8-bit for cswr) — Makefile:118-183.
A run ends with an exit status and the benchmarks reported.  Messages are not modelled.
-/
namespace Gsb
variable {T τ : Type}

/-- Everything a run depends on besides its arguments and files. -/
structure Machine (T τ : Type) where
  /-- `ITERATIONS` (params.h:20-26) -/
  iterations : Nat
  /-- `RT_WORKERS` (rt.h:8) -/
  workers : Nat
  /-- `sizeof(VALTYPE)` -/
  valSize : Nat
  /-- the numbers `vector_random` gets in the benchmark of that name -/
  rnd : String → Nat → T
  /-- the running time of call `i` in the benchmark of that name -/
  lap : String → Nat → τ
  /-- division of a time by a number of calls -/
  over : τ → Nat → τ
  /-- the floating point decisions of `pick_block_size`, `Coo_to_MatrixBlock`, `is_balanced`, `BlockFactoryDefault` -/
  logbeta : Nat → Nat → Nat
  choose : Nat → Nat → Nat → BlockChoice
  heavy : Nat → Nat → List Nat → Bool
  factory : Nat → Nat → Nat → FactoryChoice
  /-- what the uninitialised member `balanced` of a `Cgbr2` holds -/
  balanced : Bool

/-- What `benchmark_spmv_core` uses of its template parameter `MATRIX`. -/
structure Mat (T : Type) where
  rows : Nat
  columns : Nat
  nonzeros : C Nat
  spmv : Buf T → Buf T → C (Buf T)

/-- One benchmark: the name printed, the number of non-zeros the rates are computed from, the times, and
the vector `y` at the end. -/
structure Bench (T τ : Type) where
  method : String
  nonzeros : Nat
  stats : Stats τ
  y : Buf T

/-- `print_timing_verbose` and `print_timing_csv` — common.cpp:46-65, which compute the same four numbers.
`std::sort` of times, among which there is no NaN, has only one outcome. -/
def timingStats [LinearOrder τ] [Add τ] [Zero τ] (over : τ → Nat → τ) (times : List τ) : C (Stats τ) := do
  let sorted := times.mergeSort (fun a b => decide (a ≤ b))
  let t := Buf.ofList sorted
  let best ← t.get 0
  let median ← t.get (times.length / 2)
  let worst ← t.get (subM (2 ^ 64) times.length 1)
  .ok ⟨best, median, over (sorted.foldl (· + ·) 0) times.length, worst⟩

/-- `benchmark_spmv_core(A, iterations, method, print)` — bench.h:6-35; `vector_random` and `vector_zero` —
common.h:29-52. -/
def benchmark [LinearOrder τ] [Add τ] [Zero τ] [Zero T] (m : Machine T τ) (A : Mat T) (method : String) : C (Bench T τ) := do
  let x := Buf.full A.columns (m.rnd method)
  let y := Buf.full A.rows (fun _ => 0)
  let y ← A.spmv x y
  let y ← forLoop 0 m.iterations y fun _ y => A.spmv x y
  let n ← A.nonzeros
  let s ← timingStats m.over ((List.range m.iterations).map (m.lap method))
  .ok ⟨method, n, s, y⟩

/-- Exit status and the benchmarks reported. -/
abbrev Run (T τ : Type) := Nat × List (Bench T τ)

/-- Reading the matrix, as the conversions then see it — csr.cpp:28-36, blocked.cpp:34-42 and the like;
`none`: `read_COO` reported an error (the tests are `ret != 0` or `ret < 0`; no function returns a positive
number). -/
def driverRead (cv : Codec T) (conv : Bytes → T) (fuel : Nat) (fs : FS) (name : String) :
    C (Option (Nat × Nat × List (Ent T))) := do
  let r ← readCoo 4 cv conv fuel fs name
  if r.1 ≠ 0 then .ok none
  else
    match r.2.rows, r.2.columns with
    | some rows, some columns => do
      let es ← r.2.ents
      .ok (some (rows, columns, es))
    | _, _ => .error .uninit

/-! ### csr.cpp, cswr.cpp -/

/-- The two ways csr.cpp is compiled — Makefile:156-164. -/
inductive CsrKind where
  | csr
  | csr2
  deriving DecidableEq, Repr

/-- A `Csr` as the benchmark sees it. -/
def Csr.toMat [Add T] [Mul T] (A : Csr T) : Mat T := ⟨A.rows, A.columns, A.nonzeros, fun x y => A.spmv x 0 y 0⟩
/-- A `Csr2` as the benchmark sees it. -/
def Csr2.toMat [Add T] [Mul T] (A : Csr2 T) : Mat T := ⟨A.rows, A.columns, A.nonzeros, fun x y => A.spmv x y⟩
/-- A `Cswr` as the benchmark sees it. -/
def Cswr.toMat [Add T] [Mul T] (A : Cswr T) : Mat T := ⟨A.rows, A.columns, .ok A.nnz, fun x y => A.spmv (2 ^ 32) x y⟩

/-- `Coo_to_Csr(&A, &B)` in csr.cpp:41. -/
def csrConvert [Add T] [Mul T] (kind : CsrKind) (es : List (Ent T)) (rows columns : Nat) : C (Mat T) :=
  match kind with
  | .csr => do
    let r ← cooToCsr (2 ^ 32) es rows columns
    .ok r.1.toMat
  | .csr2 => do
    let r ← cooToCsr2 (2 ^ 32) es rows columns
    .ok r.1.toMat

/-- `main` of csr.cpp — csr.cpp:14-51; `args` is `argv[1] …`. -/
def csrMain [LinearOrder τ] [Add τ] [Zero τ] [Add T] [Mul T] [Zero T] (kind : CsrKind) (m : Machine T τ) (cv : Codec T)
    (conv : Bytes → T) (fuel : Nat) (fs : FS) (args : List String) : C (Run T τ) :=
  match args with
  | [] => .ok (1, [])
  | name :: _ => do
    match ← driverRead cv conv fuel fs name with
    | none => .ok (1, [])
    | some (rows, columns, es) => do
      let A ← csrConvert kind es rows columns
      let b ← benchmark m A "CSR"
      .ok (0, [b])

/-- `main` of cswr.cpp — cswr.cpp:15-63, `SITYPE` being `uint8_t`; `atoi` is the library function. -/
def cswrMain [LinearOrder τ] [Add τ] [Zero τ] [Add T] [Mul T] [Zero T] (atoi : String → Int) (m : Machine T τ) (cv : Codec T)
    (conv : Bytes → T) (fuel : Nat) (fs : FS) (args : List String) : C (Run T τ) :=
  let go (name : String) (width : Nat) : C (Run T τ) := do
    match ← driverRead cv conv fuel fs name with
    | none => .ok (1, [])
    | some (rows, columns, es) => do
      let r ← cooToCswr (2 ^ 32) (2 ^ 8) es rows columns width
      let b ← benchmark m r.1.toMat "CSWR"
      .ok (0, [b])
  match args with
  | [name] => go name 32
  | [name, w] => go name (toIdx (2 ^ 32) (atoi w))
  | _ => .ok (1, [])

/-! ### blocked.cpp -/

/-- The ways blocked.cpp is compiled — Makefile:120-146; the fifth, `Bcsr`, never gets past its constructor (C13). -/
inductive BlockedKind where
  | csbr
  | csbr2
  | cgbr
  | cgbr2
  deriving DecidableEq, Repr

/-- A `Csbr` as the benchmark sees it. -/
def Csbr.toMat [Add T] [Mul T] [Zero T] (A : Csbr T) : Mat T := ⟨A.rows, A.columns, .ok A.nnz, fun x y => A.spmv (2 ^ 32) x y⟩
/-- A `Csbr2` as the benchmark sees it. -/
def Csbr2.toMat [Add T] [Mul T] (A : Csbr2 T) : Mat T := ⟨A.rows, A.columns, .ok A.nnz, fun x y => A.spmv (2 ^ 32) x y⟩
/-- A `Cgbr` as the benchmark sees it. -/
def Cgbr.toMat [Add T] [Mul T] [Zero T] (A : Cgbr T) : Mat T :=
  ⟨A.base.rows, A.base.columns, .ok A.base.nnz, fun x y => A.spmv (2 ^ 32) x y⟩
/-- A `Cgbr2` as the benchmark sees it. -/
def Cgbr2.toMat [Add T] [Zero T] (balanced : Bool) (A : Cgbr2 T) : Mat T :=
  ⟨A.base.rows, A.base.columns, .ok A.base.nnz, fun x y => A.spmv (2 ^ 32) balanced x y⟩

/-- `Coo_to_Cgbr(Cgbr2*, B, br_size, bc_size)` — cgbr.2.h:200-225 with generic/gsb.h:13-42. -/
def cooToCgbr2Const [Add T] [Mul T] [Zero T] (M S workers : Nat) (choose : Nat → Nat → Nat → FactoryChoice)
    (es : List (Element T)) (rows columns brSize bcSize : Nat) : C (Cgbr2 T × List (Element T)) := do
  let r ← constOffsets M rows brSize
  let c ← constOffsets M columns bcSize
  cgbr2Create M workers (factoryDefault M S choose) es rows columns r.2 r.1 c.2 c.1

/-- `Coo_to_Blocked(&A, &B, beta, beta)` in blocked.cpp:96. -/
def blockedConvert [Add T] [Mul T] [Zero T] (kind : BlockedKind) (m : Machine T τ) (es : List (Element T))
    (rows columns beta : Nat) : C (Mat T) :=
  match kind with
  | .csbr => do
    let r ← cooToCsbrConst (2 ^ 32) m.workers es rows columns beta beta
    .ok r.1.toMat
  | .csbr2 => do
    let r ← cooToCsbr2Const (2 ^ 32) es rows columns beta beta
    .ok r.1.toMat
  | .cgbr => do
    let r ← cooToCgbrConst (2 ^ 32) (2 ^ 16) m.workers m.choose m.heavy es rows columns beta beta
    .ok r.1.toMat
  | .cgbr2 => do
    let r ← cooToCgbr2Const (2 ^ 32) (2 ^ 16) m.workers m.factory es rows columns beta beta
    .ok (r.1.toMat m.balanced)

/-- `main` of blocked.cpp — blocked.cpp:16-118.  The branch for given block sizes (44-89) is taken for
`argc == 5`, which line 26 has excluded. -/
def blockedMain [LinearOrder τ] [Add τ] [Zero τ] [Add T] [Mul T] [Zero T] (kind : BlockedKind) (m : Machine T τ) (cv : Codec T)
    (conv : Bytes → T) (fuel : Nat) (fs : FS) (args : List String) : C (Run T τ) :=
  if args.length + 1 ≠ 2 ∧ args.length + 1 ≠ 4 then .ok (1, [])
  else
    match args with
    | [] => .error .oob
    | name :: _ => do
      match ← driverRead cv conv fuel fs name with
      | none => .ok (1, [])
      | some (rows, columns, es) => do
        let beta ← pickBlockSize 32 m.logbeta rows columns m.valSize m.workers
        let A ← blockedConvert kind m (asElements es) rows columns beta
        let b ← benchmark m A "GSB"
        .ok (0, [b])

/-! ### bench.cpp, pbench.cpp -/

/-- From the conversion to CSR to the end — bench.cpp:47-73, pbench.cpp:78-106: `Coo_to_Csr` leaves the
elements sorted, and `Coo_to_Cgbr` then gets them in that order. -/
def benchBoth [LinearOrder τ] [Add τ] [Zero τ] [Add T] [Mul T] [Zero T] (m : Machine T τ) (es : List (Element T))
    (rows columns beta : Nat) : C (Run T τ) := do
  let r ← cooToCsr (2 ^ 32) es rows columns
  let b1 ← benchmark m r.1.toMat "CSR"
  let g ← cooToCgbr2Const (2 ^ 32) (2 ^ 16) m.workers m.factory r.2 rows columns beta beta
  let b2 ← benchmark m (g.1.toMat m.balanced) "GSB"
  .ok (0, [b1, b2])

/-- `main` of bench.cpp — bench.cpp:11-74. -/
def benchMain [LinearOrder τ] [Add τ] [Zero τ] [Add T] [Mul T] [Zero T] (m : Machine T τ) (cv : Codec T)
    (conv : Bytes → T) (fuel : Nat) (fs : FS) (args : List String) : C (Run T τ) :=
  match args with
  | [name] => do
    match ← driverRead cv conv fuel fs name with
    | none => .ok (1, [])
    | some (rows, columns, es) => do
      let beta ← pickBlockSize 32 m.logbeta rows columns m.valSize m.workers
      benchBoth m (asElements es) rows columns beta
  | _ => .ok (1, [])

/-- `main` of pbench.cpp — pbench.cpp:15-107, which defines `INVPERM`.  `get_file_size` exits with status 1 if
there is no such file (`none`). -/
def pbenchMain [LinearOrder τ] [Add τ] [Zero τ] [Add T] [Mul T] [Zero T] (malloc0 : Bool) (m : Machine T τ) (cv : Codec T)
    (conv : Bytes → T) (fuel : Nat) (fs : FS) (args : List String) : C (Run T τ) :=
  match args with
  | [name, pname] => do
    match ← driverRead cv conv fuel fs name with
    | none => .ok (1, [])
    | some (rows, columns, es) => do
      let beta ← pickBlockSize 32 m.logbeta rows columns m.valSize m.workers
      match ← readBinArray (idx 4) malloc0 fs pname with
      | none => .ok (1, [])
      | some p =>
        if p.1 < 0 then .ok (1, [])
        else do
          let inv ← invertPermutation p.2.1 (p.2.2 % 2 ^ 32)
          let es ← permuteElements inv (asElements es)
          benchBoth m es rows columns beta
  | _ => .ok (1, [])

end Gsb
