import Verif.Model.Drivers
/-
Models of src/test/result.cpp and of the comparison and statistics functions of include/test/utils.h.
-/
namespace Gsb
variable {T τ : Type}

/-- What the functions of test/utils.h use of `VALTYPE` besides `+`, `*` and 0. -/
structure Arith (T : Type) where
  /-- `a != b` -/
  ne : T → T → Bool
  /-- `a > b` -/
  gt : T → T → Bool
  sub : T → T → T
  div : T → T → T
  /-- conversion of an index or of a literal -/
  ofNat : Nat → T
  /-- `std::abs` -/
  abs : T → T
  sqrt : T → T

/-- What `check_results` prints and returns. -/
structure Report (T : Type) where
  wrong : Nat
  mse : T
  nmse : T
  maxDiff : T
  code : Int

/-- The body of the loop of `check_results` — test/utils.h:84-92; the state is `wrong`, `sq_error`, `max_diff`, `norm`. -/
def checkStep [Add T] [Mul T] (M : Nat) (fl : Arith T) (a b : Buf T) (i : Nat) (s : Nat × T × T × T) : C (Nat × T × T × T) := do
  let u ← a.get i
  let v ← b.get i
  if fl.ne u v then
    let diff := fl.sub u v
    .ok (addM M s.1 1, s.2.1 + diff * diff, if fl.gt (fl.abs diff) s.2.2.1 then fl.abs diff else s.2.2.1, s.2.2.2 + u * u)
  else
    .ok (s.1, s.2.1, s.2.2.1, s.2.2.2 + u * u)

/-- `check_results(vec1, vec2, size)` — test/utils.h:72-107. -/
def checkResults [Add T] [Mul T] [Zero T] (M : Nat) (fl : Arith T) (a b : Buf T) (size : Nat) : C (Report T) := do
  let s ← forLoop 0 size (0, 0, 0, 0) (checkStep M fl a b)
  let mse := fl.div s.2.1 (fl.ofNat size)
  .ok ⟨s.1, mse, fl.div mse s.2.2.2, s.2.2.1, if s.1 > 0 then -1 else 0⟩

/-- `mean(data, n)` — test/utils.h:38-45. -/
def mean [Add T] [Zero T] (fl : Arith T) (data : Buf T) (n : Nat) : C T := do
  let sum ← forLoop 0 n (0 : T) fun i s => do
    let d ← data.get i
    .ok (s + d)
  .ok (fl.div sum (fl.ofNat n))

/-- `median(data, n)` — test/utils.h:47-55, which sorts the array in place.  `data[(n/2)-1]` is computed in the index type. -/
def median [LinearOrder T] [Add T] (M : Nat) (fl : Arith T) (data : List T) (n : Nat) : C (T × List T) := do
  if data.length < n then .error .oob
  let sorted := (data.take n).mergeSort (fun a b => decide (a ≤ b)) ++ data.drop n
  if n % 2 ≠ 0 then do
    let m ← rd sorted (n / 2)
    .ok (m, sorted)
  else do
    let a ← rd sorted (subM M (n / 2) 1)
    let b ← rd sorted (n / 2)
    .ok (fl.div (a + b) (fl.ofNat 2), sorted)

/-- `standard_deviation(data, n)` — test/utils.h:57-65. -/
def standardDeviation [Add T] [Mul T] [Zero T] (fl : Arith T) (data : Buf T) (n : Nat) : C T := do
  let m ← mean fl data n
  let sum ← forLoop 0 n (0 : T) fun i s => do
    let d ← data.get i
    .ok (s + fl.sub d m * fl.sub d m)
  .ok (fl.sqrt (fl.div sum (fl.ofNat n)))

/-- What result.cpp depends on besides `Machine`: the arithmetic of the comparison, what `new` leaves in `y1` and `y2`, the random
vector, and the decisions of `Coo_to_MatrixBlock` for 32-bit local indices. -/
structure ResultEnv (T : Type) where
  fl : Arith T
  y1 : Nat → T
  y2 : Nat → T
  x : Nat → T
  choose32 : Nat → Nat → Nat → BlockChoice
  heavy32 : Nat → Nat → List Nat → Bool

/-- One section of result.cpp: multiply into `y2`, compare with `y1` — e.g. result.cpp:129-139.  The loop that zeroes `y2` comes after,
so that every section but the first (`y2 = env.y2`) starts with zeros. -/
def resultSection [Add T] [Mul T] [Zero T] (env : ResultEnv T) (A : Mat T) (x y1 y2 : Buf T) (rows : Nat) : C (Report T) := do
  let y2 ← A.spmv x y2
  checkResults (2 ^ 32) env.fl y1 y2 rows

/-- `main` of result.cpp — result.cpp:19-262.  Each conversion leaves the array of elements sorted in its own way, and the next one
starts from that; before the three CGBR matrices it is saved and restored. -/
def resultMain [Add T] [Mul T] [Zero T] (env : ResultEnv T) (m : Machine T τ) (cv : Codec T)
    (conv : Bytes → T) (fuel : Nat) (fs : FS) (args : List String) : C (Nat × List (Report T)) :=
  match args with
  | [] => .ok (1, [])
  | name :: _ => do
    match ← driverRead cv conv fuel fs name with
    | none => .ok (1, [])
    | some (rows, columns, es) => do
      let beta ← pickBlockSize 32 m.logbeta rows columns m.valSize m.workers
      let beta := if beta > rows then rows else beta
      let beta := if beta > columns then columns else beta
      let x := Buf.full columns env.x
      let zero := Buf.full rows (fun _ => (0 : T))
      let a1 ← cooToCsr (2 ^ 32) (asElements es) rows columns
      let y1 ← a1.1.toMat.spmv x (Buf.full rows env.y1)
      let a2 ← cooToCsr2 (2 ^ 32) a1.2 rows columns
      let r1 ← resultSection env a2.1.toMat x y1 (Buf.full rows env.y2) rows
      let a3 ← cooToCswr (2 ^ 32) (2 ^ 8) a2.2 rows columns 32
      let r2 ← resultSection env a3.1.toMat x y1 zero rows
      let a4 ← cooToCsbrConst (2 ^ 32) m.workers a3.2 rows columns beta beta
      let r3 ← resultSection env a4.1.toMat x y1 zero rows
      let a5 ← cooToCsbr2Const (2 ^ 32) a4.2 rows columns beta beta
      let r4 ← resultSection env a5.1.toMat x y1 zero rows
      let a6 ← cooToCgbrConst (2 ^ 32) (2 ^ 32) m.workers env.choose32 env.heavy32 a5.2 rows columns beta beta
      let r5 ← resultSection env a6.1.toMat x y1 zero rows
      let a7 ← cooToCgbrConst (2 ^ 32) (2 ^ 16) m.workers m.choose m.heavy a5.2 rows columns beta beta
      let r6 ← resultSection env a7.1.toMat x y1 zero rows
      let a8 ← cooToCgbr2Const (2 ^ 32) (2 ^ 16) m.workers m.factory a5.2 rows columns beta beta
      let r7 ← resultSection env (a8.1.toMat m.balanced) x y1 zero rows
      .ok (0, [r1, r2, r3, r4, r5, r6, r7])

end Gsb
