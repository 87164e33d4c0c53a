import Verif.Model.ErgoTree

/-!
# Addresses

Source: `ergotree-ir/src/chain/address.rs`.  Base58 (`bs58` crate) is not modelled: the functions on strings take the pair
`Base58` of encoder and decoder, of which only "decoding an encoded string gives the bytes back" is assumed.  Errors carry no
payload.
-/

namespace Verif
variable {G B T : Type}

/-- `[u8; 24]`, `ergotree-ir/src/chain/address.rs:84`. -/
abbrev Hash24 := { bs : Bytes // bs.length = 24 }

/-- `Address`, `address.rs:77-85`. -/
inductive Address (G : Type) where
  | p2pk (h : G)
  | p2s (bytes : Bytes)
  | p2sh (hash : Hash24)
  deriving DecidableEq

/-- `NetworkPrefix`, `address.rs:344-351`. -/
inductive Network where
  | mainnet
  | testnet
  deriving DecidableEq, Repr

/-- `NetworkPrefix as u8`, `ergotree-ir/src/chain/address.rs:344-351`. -/
def Network.byte : Network → Byte
  | .mainnet => 0
  | .testnet => 16

/-- `TryFrom<u8> for NetworkPrefix`, `address.rs:353-364`. -/
def Network.ofByte (b : Byte) : Option Network :=
  if b = 0 then some .mainnet else if b = 16 then some .testnet else none

namespace Address

/-- `Address::address_type_prefix` and `AddressTypePrefix as u8`, `address.rs:180-186, 318-327`. -/
def typeByte : Address G → Byte
  | p2pk _ => 1
  | p2s _ => 3
  | p2sh _ => 2

/-- `Address::content_bytes`, `address.rs:189-200`. -/
def contentBytes [DecidableEq G] (pc : PointCodec G) : Address G → Bytes
  | p2pk h => putPoint pc h
  | p2s b => b
  | p2sh h => h.1

/-- `AddressEncoder::calc_checksum`, `address.rs:451-459`. -/
def checksum (H : HashFn) (bytes : Bytes) : Bytes := (H bytes).take 4

/-- `AddressEncoder::encode_address_as_bytes`, `address.rs:532-540` (the sum of the two prefixes fits in a byte). -/
def encode [DecidableEq G] (pc : PointCodec G) (H : HashFn) (n : Network) (a : Address G) : Bytes :=
  let bytes := (n.byte + a.typeByte) :: a.contentBytes pc
  bytes ++ checksum H bytes

/-- `AddressEncoder::unchecked_parse_address_from_bytes` with `TryFrom<u8> for AddressTypePrefix`, `address.rs:329-341,
496-524`.  `sigma_parse_bytes` of the point reads its 33 bytes and ignores what follows. -/
def parseUnchecked (pc : PointCodec G) (H : HashFn) (bytes : Bytes) : Option (Address G) :=
  if bytes.length < 6 then none
  else
    let body := bytes.take (bytes.length - 4)
    let sum := bytes.drop (bytes.length - 4)
    if sum ≠ checksum H body then none
    else
      match body with
      | [] => none
      | head :: content =>
        if head &&& 0xF = 1 then (getPoint pc content).map fun x => p2pk x.1
        else if head &&& 0xF = 2 then if h : content.length = 24 then some (p2sh ⟨content, h⟩) else none
        else if head &&& 0xF = 3 then some (p2s content)
        else none

/-- `AddressEncoder::unchecked_parse_network_address_from_bytes`, `address.rs:478-491`. -/
def parseNetwork (pc : PointCodec G) (H : HashFn) (bytes : Bytes) : Option (Network × Address G) :=
  if bytes.length < 6 then none
  else do
    let n ← Network.ofByte ((bytes.headD 0) &&& 0xF0)
    let a ← parseUnchecked pc H bytes
    pure (n, a)

/-- `AddressEncoder::check_head_byte` with `is_mainnet_address` and `is_testnet_address`, `address.rs:426-449`. -/
def headOk (n : Network) (head : Byte) : Bool :=
  match n with
  | .mainnet => !decide (16 < head.toNat)
  | .testnet => !decide (head.toNat < 16)

/-- `AddressEncoder::parse_address_from_str` after Base58 decoding, `address.rs:462-469`. -/
def parseFor (pc : PointCodec G) (H : HashFn) (n : Network) (bytes : Bytes) : Option (Address G) :=
  if bytes.length < 6 then none
  else if headOk n (bytes.headD 0) then parseUnchecked pc H bytes
  else none

end Address

/-- The `bs58` crate: `encode(..).into_string()` and `decode(..).into_vec()`, used at `ergotree-ir/src/chain/address.rs:461, 473`. -/
structure Base58 where
  enc : Bytes → String
  dec : String → Option Bytes
  dec_enc : ∀ b, dec (enc b) = some b

namespace Address

/-- `AddressEncoder::encode_address_as_string`, `NetworkAddress::to_base58`, `address.rs:273-275, 543-549`. -/
def toText [DecidableEq G] (S : Base58) (pc : PointCodec G) (H : HashFn) (n : Network) (a : Address G) : String :=
  S.enc (encode pc H n a)

/-- `AddressEncoder::parse_address_from_str`, `address.rs:462-469`. -/
def ofText (S : Base58) (pc : PointCodec G) (H : HashFn) (n : Network) (s : String) : Option (Address G) := do
  let b ← S.dec s
  parseFor pc H n b

/-- `AddressEncoder::unchecked_parse_network_address_from_str`, `TryFrom<String> for NetworkAddress`, `address.rs:288-294,
472-477`. -/
def networkOfText (S : Base58) (pc : PointCodec G) (H : HashFn) (s : String) : Option (Network × Address G) := do
  let b ← S.dec s
  parseNetwork pc H b

/-! ## Scripts -/

/-- The constant `0i32.into()`, `ergotree-ir/src/chain/address.rs:226`. -/
def intExpr (v : BitVec 32) : Expr G B := .const { tpe := .int, v := .int v }

/-- The expression of a pay-to-script-hash address, `address.rs:217-252`. -/
def p2shExpr (hash : Bytes) : Expr G B :=
  .sigma true [
    .op .boolToSigmaProp [
      .bin .eq
        (.op .slice [.op .calcBlake2b256 [.getVar 1 SType.collByte], intExpr 0, intExpr 24])
        (.const { tpe := SType.collByte, v := .collByte hash })],
    .deserCtx .sigmaProp 1]

/-- `Address::script`, `address.rs:203-266`. -/
def script [DecidableEq G] (E : Sers G B T) (M : Byte → Byte → Option FuncSig) : Address G → Outcome (ETree G B)
  | p2pk h =>
    match ETree.ofExpr E M (.const { tpe := .sigmaProp, v := .sigmaProp (.dlog h) }) with
    | .ok t => .ok t
    | _ => .panic
  | p2s bytes =>
    match ETree.parseBytes E M bytes with
    | some t => .ok t
    | none => .err
  | p2sh hash => ETree.new E M (TreeHeader.v0 false) (p2shExpr hash.1)

/-- `tree.sigma_serialize_bytes()?` as a pay-to-script address, `ergotree-ir/src/chain/address.rs:108, 167, 169`. -/
def asP2s [DecidableEq G] (E : Sers G B T) (t : ETree G B) : Outcome (Address G) := do
  let b ← t.ser E
  pure (p2s b)

/-- The pattern of `address.rs:109-162`: the hash constant of an expression that looks like `p2shExpr` (the input of
`CalcBlake2b256` is not looked at, nor the type of the hash constant). -/
def p2shPattern : Expr G B → Option Bytes
  | .sigma true [.op .boolToSigmaProp [.bin .eq (.op .slice [.op .calcBlake2b256 [_], .const from', .const until']) (.const c)],
      .deserCtx .sigmaProp id] =>
    if id = 1 then
      match c.v, from'.tpe, from'.v, until'.tpe, until'.v with
      | .collByte bytes, .int, .int a, .int, .int b => if a = 0 ∧ b = 24 then some bytes else none
      | _, _, _, _, _ => none
    else none
  | _ => none

/-- `Address::recreate_from_ergo_tree`, `address.rs:99-177`. -/
def recreate [DecidableEq G] (E : Sers G B T) (M : Byte → Byte → Option FuncSig) (t : ETree G B) : Outcome (Address G) :=
  match t.proposition E M with
  | .ok e =>
    match e with
    | .const c =>
      match c.tpe, c.v with
      | .sigmaProp, .sigmaProp (.dlog h) => .ok (p2pk h)
      | _, _ => asP2s E t
    | e =>
      match p2shPattern e with
      | some bytes => if h : bytes.length = 24 then .ok (p2sh ⟨bytes, h⟩) else .err
      | none => asP2s E t
  | .err => asP2s E t
  | .panic => .panic

end Address
end Verif
