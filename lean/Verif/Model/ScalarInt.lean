import Verif.Model.SecretKey
import Verif.Model.BigInt

/-!
# Scalars and 256-bit integers

Source: `ergotree-ir/src/sigma_protocol/dlog_group.rs`, `ergotree-ir/src/bigint256.rs`, `ergo-chain-types/src/ec_point.rs`.
-/

namespace Verif
open Sigma
variable {G : Type} {q : Nat}

/-- `BigInt256::try_from(BigUint)`, `ergotree-ir/src/bigint256.rs:40-53`. -/
def bigInt256OfNat (n : Nat) : Option Int := if n > (2 ^ 255 - 1 : Int).toNat then none else some (n : Int)

/-- `scalar_to_bigint256`, `ergotree-ir/src/sigma_protocol/dlog_group.rs:51-61`. -/
def scalarToBigInt (s : ZMod q) : Option Int :=
  bigInt256OfNat ((scalarBytes s).mapIdx fun i w => w.toNat <<< ((31 - i) * 8)).sum

/-- `biguint_to_bytes`, `dlog_group.rs:63-73`. -/
def natToBytes32 (x : Nat) : Bytes := (List.range 32).map fun i => BitVec.ofNat 8 ((x >>> ((31 - i) * 8)) &&& 255)

/-- `bigint256_to_scalar`, `dlog_group.rs:77-85`; `Scalar::from_repr` as in `keyOfBytes`. -/
def bigIntToScalar (n : Int) : Option (ZMod q) := if n < 0 then none else keyOfBytes (natToBytes32 n.toNat)

/-- `order`, `dlog_group.rs:100-107`. -/
def secpOrder : Nat := 0xFFFFFFFFFFFFFFFFFFFFFFFFFFFFFFFEBAAEDCE6AF48A03BBFD25E8CD0364141

/-- `exponentiate`, `ergo-chain-types/src/ec_point.rs:111-118`; the group is written additively, and its multiplication by a scalar is
that of the `k256` crate. -/
def expPoint [AddCommGroup G] [DecidableEq G] [Module (ZMod q) G] (base : G) (e : ZMod q) : G := if ¬base = 0 then e • base else base

/-- `Exponentiate::eval` on values of the right types, `ergotree-interpreter/src/eval/exponentiate.rs:12-30`. -/
def evalExp [AddCommGroup G] [DecidableEq G] (q : Nat) [Module (ZMod q) G] (g : G) (n : Int) : Outcome G :=
  match (bigIntToScalar n : Option (ZMod q)) with
  | some e => .ok (expPoint g e)
  | none => .err

end Verif
