import Verif.Model.Types
/-
Model of `bit_interleave` and `sort_triplets_morton` — include/utils.h:170-212.
-/
namespace Gsb

/-- The four shift-or-mask steps applied to `x` (and to `y`) in `bit_interleave` —
include/utils.h:183-186 and 188-191, on `uint32_t`. -/
def spreadBits (x : BitVec 32) : BitVec 32 :=
  let x := (x ||| (x <<< 8)) &&& 0x00FF00FF#32
  let x := (x ||| (x <<< 4)) &&& 0x0F0F0F0F#32
  let x := (x ||| (x <<< 2)) &&& 0x33333333#32
  let x := (x ||| (x <<< 1)) &&& 0x55555555#32
  x

/-- `bit_interleave<IT>(row, col)` — include/utils.h:175-194; `M` is the number of values of `IT`,
to which the 32-bit result is cast. -/
def bitInterleave (M : Nat) (row col : Nat) : Nat :=
  (spreadBits (BitVec.ofNat 32 row) ||| (spreadBits (BitVec.ofNat 32 col) <<< 1)).toNat % M

/-- The comparator of `sort_triplets_morton` — include/utils.h:204-208. -/
def ltMorton {ε T : Type} [NZ ε T] (M : Nat) (a b : ε) : Bool :=
  decide (bitInterleave M (NZ.toEnt a).row (NZ.toEnt a).col <
    bitInterleave M (NZ.toEnt b).row (NZ.toEnt b).col)

/-- `sort_triplets_morton` — include/utils.h:199-212. -/
def sortTripletsMorton {ε T : Type} [NZ ε T] (M : Nat) (es : List ε) : List ε :=
  pssSort (ltMorton M) es

end Gsb
