import Verif.Model.Vlq

/-!
# Box values, token amounts

Source: `ergotree-ir/src/chain/ergo_box/box_value.rs`, `ergotree-ir/src/chain/token.rs`.
A `u64` field is a natural number; the width shows up in the explicit `< 2 ^ 64` tests of the checked operations.
`none` is the Rust `Err` (the error payload is not modelled).
-/

namespace Verif

/-- Build mode: unchecked `u64` arithmetic panics on overflow in debug builds and wraps in release builds
(`Cargo.toml:82` has a release profile without `overflow-checks`), e.g. `ergo-lib/src/wallet/box_selector/simple.rs:91, 205`. -/
inductive Mode where
  | debug
  | release
  deriving DecidableEq, Repr

/-- Unchecked `u64` addition (`+`, `+=`, `.sum()`), `ergo-lib/src/wallet/box_selector.rs:136`,
`ergo-lib/src/wallet/box_selector/simple.rs:91, 205`. -/
def addU64 (m : Mode) (a b : Nat) : Outcome Nat :=
  if a + b < 2 ^ 64 then .ok (a + b)
  else match m with
    | .debug => .panic
    | .release => .ok ((a + b) % 2 ^ 64)

namespace BoxValue

/-- `MIN_VALUE_PER_BOX_BYTE`, `box_value.rs:32`. -/
def minValuePerBoxByte : Nat := 360
/-- `MIN_BOX_SIZE_BYTES`, `box_value.rs:34`. -/
def minBoxSizeBytes : Nat := 30
/-- `MIN_RAW`, `box_value.rs:37-38`. -/
def minRaw : Nat := minValuePerBoxByte * minBoxSizeBytes
/-- `MAX_RAW = i64::MAX as u64`, `box_value.rs:40`. -/
def maxRaw : Nat := 2 ^ 63 - 1
/-- `SAFE_USER_MIN`, `box_value.rs:47`. -/
def safeUserMin : Nat := 1000000

/-- `within_bounds`, `box_value.rs:58-60`. -/
def withinBounds (v : Nat) : Bool := decide (v ≥ minRaw) && decide (v ≤ maxRaw)

/-- `TryFrom<u64>` (and `new`), `box_value.rs:53-55, 122-131`. -/
def tryFromU64 (v : Nat) : Option Nat := if withinBounds v then some v else none

/-- `TryFrom<i64>`, `box_value.rs:133-142`. -/
def tryFromI64 (v : Int) : Option Nat := if v ≥ (minRaw : Int) then some v.toNat else none

/-- `checked_add`, `box_value.rs:73-80`. -/
def checkedAdd (a b : Nat) : Option Nat :=
  if a + b < 2 ^ 64 then (if a + b > maxRaw then none else some (a + b)) else none

/-- `checked_sub`, `box_value.rs:83-90`. -/
def checkedSub (a b : Nat) : Option Nat :=
  if b ≤ a then (if a - b < minRaw then none else some (a - b)) else none

/-- `checked_mul`, `box_value.rs:93-100`. -/
def checkedMul (a b : Nat) : Option Nat :=
  if a * b < 2 ^ 64 then (if a * b > maxRaw then none else some (a * b)) else none

/-- `checked_mul_u32`, `box_value.rs:103-113`. -/
def checkedMulU32 (a : Nat) (b : BitVec 32) : Option Nat :=
  if a * b.toNat < 2 ^ 64 then (if a * b.toNat > maxRaw then none else some (a * b.toNat)) else none

/-- derived `FromStr`, `box_value.rs:15-17, 20-22` (`derive_more::FromStr` on a newtype parses the inner `u64` and
wraps it); the argument is the parsed `u64`. -/
def fromStr (v : Nat) : Option Nat := if v < 2 ^ 64 then some v else none

/-- The `try_fold` of `checked_sum`, `box_value.rs:200`. -/
def checkedSumAux : Nat → List Nat → Option Nat
  | acc, [] => some acc
  | acc, v :: vs => match checkedAdd acc v with
    | some acc' => checkedSumAux acc' vs
    | none => none

/-- `checked_sum`, `box_value.rs:199-209`. -/
def checkedSum (l : List Nat) : Option Nat :=
  match checkedSumAux 0 l with
  | some v => if v = 0 then none else some v
  | none => none

/-- `sigma_serialize`, `box_value.rs:164-167`. -/
def ser (v : Nat) : Bytes := putU64 (BitVec.ofNat 64 v)

/-- `sigma_parse`, `box_value.rs:168-171`. -/
def parse : Parser Nat := do
  let v ← getU64
  Parser.ofOption (tryFromU64 v.toNat)

end BoxValue

namespace TokenAmount

/-- `MIN_RAW`, `token.rs:89`. -/
def minRaw : Nat := 1
/-- `MAX_RAW`, `token.rs:91`. -/
def maxRaw : Nat := 2 ^ 63 - 1

/-- `TryFrom<u64>`, `token.rs:139-149`. -/
def tryFromU64 (v : Nat) : Option Nat := if minRaw ≤ v ∧ v ≤ maxRaw then some v else none

/-- `checked_add`, `token.rs:97-107`. -/
def checkedAdd (a b : Nat) : Option Nat :=
  if a + b < 2 ^ 64 then (if a + b > maxRaw then none else some (a + b)) else none

/-- `checked_sub`, `token.rs:110-120`. -/
def checkedSub (a b : Nat) : Option Nat :=
  if b ≤ a then (if a - b < minRaw then none else some (a - b)) else none

end TokenAmount

end Verif
