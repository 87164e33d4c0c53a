import Verif.Model.ExtKey
import Verif.Model.Prover
import Verif.Model.JsonHint
import Verif.Model.Address

/-!
# Secret keys

Source: `ergo-lib/src/wallet/secret_key.rs`, `ergotree-interpreter/src/sigma_protocol/private_input.rs`.  `SecretKey` and
`PrivateInput` have the same two variants (`secret_key.rs:126-133`); both are `Sigma.Secret` here.
-/

namespace Verif
open Sigma Json

section
variable {G : Type} {q : Nat}

/-- `SecretKey::to_bytes`, `secret_key.rs:84-89`, with `DlogProverInput::to_bytes` and `DhTupleProverInput::to_bytes`,
`private_input.rs:84-86, 156-164`. -/
def secretToBytes [DecidableEq G] (pc : PointCodec G) : Secret G q → Bytes
  | .dlog w => scalarBytes w
  | .dht w g h u v => scalarBytes w ++ (putPoint pc g ++ (putPoint pc h ++ (putPoint pc u ++ putPoint pc v)))

/-- `EcPoint::sigma_parse_bytes` on a slice, `ergotree-interpreter/src/sigma_protocol/private_input.rs:198-216`. -/
def pointOfBytes (pc : PointCodec G) (bs : Bytes) : Option G := (getPoint pc bs).map Prod.fst

/-- `DhTupleProverInput::from_bytes_fields`, `private_input.rs:198-216`. -/
def dhtOfFields (pc : PointCodec G) (wb gb hb ub vb : Bytes) : Option (Secret G q) := do
  let g ← pointOfBytes pc gb
  let h ← pointOfBytes pc hb
  let u ← pointOfBytes pc ub
  let v ← pointOfBytes pc vb
  let w ← keyOfBytes wb
  pure (.dht w g h u v)

/-- `DhTupleProverInput::from_bytes`, `private_input.rs:170-193`. -/
def dhtOfBytes (pc : PointCodec G) (bs : Bytes) : Option (Secret G q) :=
  dhtOfFields pc (bs.take 32) ((bs.drop 32).take 33) ((bs.drop 65).take 33) ((bs.drop 98).take 33) ((bs.drop 131).take 33)

/-- `SecretKey::from_bytes`, `secret_key.rs:95-111`; sizes from `private_input.rs:40, 128`. -/
def secretOfBytes (pc : PointCodec G) (bs : Bytes) : Option (Secret G q) :=
  if bs.length = 32 then (keyOfBytes bs).map .dlog
  else if bs.length = 164 then dhtOfBytes pc bs
  else none

/-- `DlogProverInput::from_biguint`, `private_input.rs:68-81`: the lowest 32 bytes of the number. -/
def keyOfNat (n : Nat) : Option (ZMod q) := keyOfBytes ((List.range 32).map fun i => BitVec.ofNat 8 (n >>> ((31 - i) * 8)))

/-- `DlogProverInput::from_base16_str`, `private_input.rs:59-64`. -/
def keyOfHex (s : Text) : Option (ZMod q) := do
  let bs ← hexDec s
  if bs.length = 32 then keyOfBytes bs else none

/-- `Serialize for SecretKey`, `secret_key.rs:16-17` (untagged), `private_input.rs:23-24, 108-117` (transparent; flattened tuple). -/
def writeSecret [DecidableEq G] (pc : PointCodec G) : Secret G q → Json
  | .dlog w => .str (hexEnc (scalarBytes w))
  | .dht w g h u v =>
    .obj [(kSecret, .str (hexEnc (scalarBytes w))), (kG, writePoint pc g), (kH, writePoint pc h), (kU, writePoint pc u),
      (kV, writePoint pc v)]

/-- `Deserialize for DhTupleProverInput`, `private_input.rs:108-117`. -/
def readDhtSecret (pc : PointCodec G) : Json → Outcome (Secret G q)
  | .obj o => do
    let w ← req [kSecret] o >>= readWscalar
    let g ← req [kG] o >>= readPoint pc
    let h ← req [kH] o >>= readPoint pc
    let u ← req [kU] o >>= readPoint pc
    let v ← req [kV] o >>= readPoint pc
    pure (.dht w g h u v)
  | _ => .err

/-- `Deserialize for SecretKey`, `secret_key.rs:16-17`: the variants are tried in order. -/
def readSecret (pc : PointCodec G) (j : Json) : Outcome (Secret G q) :=
  match readWscalar j with
  | .ok w => .ok (.dlog w)
  | .panic => .panic
  | .err => readDhtSecret pc j

variable [DecidableEq G] [AddCommGroup G] [Module (ZMod q) G]

/-- `SecretKey::get_address_from_public_image`, `secret_key.rs:72-81`. -/
def secretAddress {B T : Type} (E : Sers G B T) (M : Byte → Byte → Option FuncSig) (C : Curve G) : Secret G q → Outcome (Address G)
  | .dlog w => .ok (.p2pk (publicImage C w))
  | .dht _ g h u v =>
    match ETree.ofExpr E M (.const { tpe := .sigmaProp, v := .sigmaProp (.dht g h u v) }) with
    | .ok t =>
      match t.ser E with
      | .ok b => .ok (.p2s b)
      | _ => .panic
    | _ => .panic

/-- `DhTupleProverInput::random`, `private_input.rs:132-147`; `x` and `w` are the two random scalars. -/
def randomDht (C : Curve G) (x w : ZMod q) : Secret G q :=
  .dht w C.gen (expo C C.gen x) (expo C C.gen w) (expo C (expo C C.gen x) w)

end

end Verif
