import Verif.Basic.C
/-
/repo/src/common.cpp:100-184 (`next_power_of_two`, `highest_bit_set`) and
/repo/include/utils.h:13-107 (`pick_block_size`).
-/
namespace Gsb

/-- `n |= n >> k` (common.cpp:108-113). -/
def smear (k n : Nat) : Nat := n ||| (n >>> k)

/-- `next_power_of_two` (common.cpp:105-117), on `uint64_t`. -/
def nextPowerOfTwo (n : Nat) : Nat :=
  let n := subM (2 ^ 64) n 1
  let n := smear 1 n
  let n := smear 2 n
  let n := smear 4 n
  let n := smear 8 n
  let n := smear 16 n
  let n := smear 32 n
  addM (2 ^ 64) n 1

/-- The loop of `highest_bit_set` (common.cpp:131-136, 164-171) over the pairs `(b[i], S[i])`, last index first. -/
def hbsLoop : List (Nat × Nat) → Nat → Nat → Nat
  | [], _, r => r
  | (b, s) :: t, v, r => if v &&& b ≠ 0 then hbsLoop t (v >>> s) (r ||| s) else hbsLoop t v r

/-- `highest_bit_set(unsigned int)` (common.cpp:156-173). -/
def highestBitSet32 (v : Nat) : Nat := hbsLoop [(0xFFFF0000, 16), (0xFF00, 8), (0xF0, 4), (0xC, 2), (0x2, 1)] v 0

/-- `highest_bit_set(uint64_t)` (common.cpp:123-138). -/
def highestBitSet64 (v : Nat) : Nat :=
  hbsLoop [(0xFFFFFFFF00000000, 32), (0xFFFF0000, 16), (0xFF00, 8), (0xF0, 4), (0xC, 2), (0x2, 1)] v 0

/-- `highest_bit_set(int)` (common.cpp:175-184). -/
def highestBitSetI32 (v : Int) : Int := if v < 0 then -1 else (highestBitSet32 v.toNat : Nat)

/-- `highest_bit_set(int64_t)` (common.cpp:140-149). -/
def highestBitSetI64 (v : Int) : Int := if v < 0 then -1 else (highestBitSet64 v.toNat : Nat)

/-- Overload resolution on the index type: 32 or 64 bits. -/
def highestBitSet (W v : Nat) : Nat := if W = 32 then highestBitSet32 v else highestBitSet64 v

/-- `1 << n` on `int`: `1 << 31` is `INT_MIN` (the bit pattern, as every compiler has it and C++14 has it after
DR 1457); shifting by 32 or more is undefined. -/
def shl1 (n : Nat) : C Int := if n < 31 then .ok (2 ^ n) else if n = 31 then .ok (-2 ^ 31) else .error .ub

/-- `SLACKNESS` (params.h:57-59), default. -/
def slackness : Nat := 8
/-- `L2SIZE` (params.h:53-56), default. -/
def l2Size : Nat := 256 * 1024

/-- `SLACKNESS * workers` on `int`. -/
def slackWorkers (workers : Nat) : C Int :=
  if slackness * workers < 2 ^ 31 then .ok ((slackness * workers : Nat) : Int) else .error .ub

/-- An `int` converted to an unsigned type with `M` values. -/
def toUnsigned (M : Nat) (v : Int) : Nat := (v % (M : Int)).toNat

/-- `(1 << k) - 1`, assigned to an unsigned type with `M` values (utils.h:94-95, 102). -/
def lowMask (M k : Nat) : C Nat := do
  let a ← shl1 k
  if a < 0 then .error .ub else pure (toUnsigned M (a - 1))

/-- `while (l2 > L2SIZE) { l2 /= 2; high++; low--; }` (utils.h:52-57, 61-66); the counter of high bits, which nothing
reads afterwards, is dropped. -/
def l2Loop (M : Nat) (l2 low : Nat) : C (Nat × Nat) :=
  whileLoop (fun s => .ok (decide (l2Size < s.1))) (fun s => .ok (s.1 / 2, subM M s.2 1)) 65 (l2, low)

/-- The test `sizereq` (utils.h:24-30). -/
def sizeReq (workers rowbits colbits : Nat) : C Bool :=
  if 1 < workers then do
    let sw ← slackWorkers workers
    let a ← shl1 rowbits
    if sw < a then do
      let b ← shl1 colbits
      pure (decide (sw < b))
    else pure false
  else pure (decide (1 < rowbits) && decide (1 < colbits))

/-- The first loop (utils.h:43-48). -/
def slackLoop (M workers high low : Nat) : C (Nat × Nat) :=
  if 1 < workers then
    whileLoop (fun s : Nat × Nat => do
        let a ← shl1 s.1
        let sw ← slackWorkers workers
        pure (decide (a < sw)))
      (fun s => .ok (addM M s.1 1, subM M s.2 1)) 65 (high, low)
  else pure (high, low)

/-- `pick_block_size(m, n, val_size, workers)` (utils.h:13-107) for an unsigned index type of `W` bits.
`logbeta m n` stands for the value of `ceil(log2(sqrt(sqrt(m*n)))) + 2`, computed in floating point (utils.h:97-98). -/
def pickBlockSize (W : Nat) (logbeta : Nat → Nat → Nat) (m n valSize workers : Nat) : C Nat := do
  let M := 2 ^ W
  let roundrowup := nextPowerOfTwo m % M
  let roundcolup := nextPowerOfTwo n % M
  let rowbits := highestBitSet W roundrowup
  let colbits := highestBitSet W roundcolup
  let sizereq ← sizeReq workers rowbits colbits
  if !sizereq then pure 0
  else do
    let rowlowbits := subM M rowbits 1
    let collowbits := subM M colbits 1
    let maxbits := highestBitSet W (M - 1)
    let rowhighbits := subM M rowbits rowlowbits
    let (_, rowlowbits) ← slackLoop M workers rowhighbits rowlowbits
    let a ← shl1 rowlowbits
    let yL2 := toUnsigned (2 ^ 64) a * valSize % 2 ^ 64 % M
    let (_, rowlowbits) ← l2Loop M yL2 rowlowbits
    let a ← shl1 collowbits
    let xL2 := toUnsigned (2 ^ 64) a * valSize % 2 ^ 64 % M
    let (_, collowbits) ← l2Loop M xL2 collowbits
    let (rowlowbits, collowbits) ←
      whileLoop (fun s : Nat × Nat => .ok (decide (maxbits < addM M s.1 s.2)))
        (fun s => .ok (if s.2 < s.1 then (subM M s.1 1, s.2) else (s.1, subM M s.2 1))) 129 (rowlowbits, collowbits)
    let rowlowbits ← whileLoop (fun r : Nat => .ok (decide (collowbits < r))) (fun r => .ok (subM M r 1)) 129 rowlowbits
    let collowbits ← whileLoop (fun c : Nat => .ok (decide (rowlowbits < c))) (fun c => .ok (subM M c 1)) 129 collowbits
    cassert (collowbits == rowlowbits)
    let lowrowmask ← lowMask M rowlowbits
    let _ ← lowMask M collowbits
    let lb := logbeta m n % M
    if lb < rowlowbits then do
      let lowrowmask ← lowMask M lb
      pure (addM M lowrowmask 1)
    else pure (addM M lowrowmask 1)

end Gsb
