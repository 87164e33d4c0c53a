import Verif.Model.Base
import Mathlib.Data.Nat.Size

/-!
# Big-endian number encodings and 256-bit integers

`num_bigint::BigInt::{to_signed_bytes_be, from_signed_bytes_be}` and `BigUint::from_bytes_be` are library functions; the
definitions below are their documented meaning (minimal two's complement big-endian form).
`BigInt256` is `ergotree-ir/src/bigint256.rs`.
-/

namespace Verif

/-- `BigUint::from_bytes_be`, used at `ergo-nipopow/src/autolykos_pow_scheme.rs:63, 69, 99`. -/
def beNat : Bytes → Nat
  | [] => 0
  | b :: l => b.toNat * 256 ^ l.length + beNat l

/-- The last `k` base-256 digits of `n`, most significant first (fixed-width `to_be_bytes`), used at
`ergo-nipopow/src/autolykos_pow_scheme.rs:63, 69, 99`. -/
def natBe : Nat → Nat → Bytes
  | 0, _ => []
  | k + 1, n => BitVec.ofNat 8 (n / 256 ^ k) :: natBe k n

/-- `BigInt::from_signed_bytes_be`: two's complement, big-endian; the empty slice is 0, used at `ergotree-ir/src/bigint256.rs:58`. -/
def signedOfBe (l : Bytes) : Int :=
  match l with
  | [] => 0
  | b :: _ => if 128 ≤ b.toNat then (beNat l : Int) - (256 ^ l.length : Nat) else beNat l

/-- Number of bytes of the minimal two's complement form, for `ergotree-ir/src/serialization/data.rs:38`. -/
def signedLen (n : Int) : Nat := (if 0 ≤ n then n.toNat else (-n - 1).toNat).size / 8 + 1

/-- `BigInt::to_signed_bytes_be`, used at `ergotree-ir/src/serialization/data.rs:38`, `ergo-nipopow/src/autolykos_pow_scheme.rs:177`. -/
def toSignedBe (n : Int) : Bytes := natBe (signedLen n) (n % (256 ^ signedLen n : Nat)).toNat

/-- `BigInt256::try_from(BigInt)`, `bigint256.rs:24-35`. -/
def bigInt256 (n : Int) : Option Int := if -2 ^ 255 ≤ n ∧ n ≤ 2 ^ 255 - 1 then some n else none

end Verif
