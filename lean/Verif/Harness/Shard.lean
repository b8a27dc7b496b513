import Verif.Cpp.Lib

/-!
`shardTestCases` (tests/harness/executor/executor.go:41-71).
-/

namespace PGV.Harness

/-- `int(math.Ceil(x))` for a multiple of `2^-1074` (tests/harness/executor/executor.go:64). -/
def ceil (x : Int) : Int := -(-x / 2 ^ 1074)

/-- `int(math.Ceil(float64(n) / float64(count)))` (executor.go:64): both conversions and the division round
to the nearest `float64`; values are kept as multiples of `2^-1074`. A total of zero shards or fewer is
not modelled. -/
def shardLength (n count : Nat) : Int :=
  ceil (Cpp.readDouble (Cpp.readDouble n 1) (Cpp.readDouble count 1))

/-- `shardTestCases` once the environment asks for sharding (executor.go:64-70): `none` when slicing
panics. (The products do not overflow for fewer than 2^53 cases and shards.) -/
def shard {α : Type} (cases : List α) (count index : Nat) : Option (List α) :=
  let len := shardLength cases.length count
  let first : Int := index * len
  let last : Int := (index + 1) * len
  let last := if last ≥ cases.length then (cases.length : Int) else last
  if 0 ≤ first ∧ first ≤ last then some ((cases.drop first.toNat).take (last - first).toNat) else none

/-- `shardTestCases` (executor.go:41-71): `total` and `index` are the numbers in `TEST_TOTAL_SHARDS` and
`TEST_SHARD_INDEX`, `status` is true if `TEST_SHARD_STATUS_FILE` could be created. -/
def shardTestCases {α : Type} (total index : Option Nat) (status : Bool) (cases : List α) :
    Option (List α) :=
  match total, index with
  | some count, some i => if status then shard cases count i else some cases
  | _, _ => some cases

end PGV.Harness
