import Verif.Model.SType
import Verif.Model.BigInt
import Verif.Model.SigmaBoolean

/-!
# Constants: data values and their byte codec

Source: `ergotree-ir/src/mir/constant.rs`, `ergotree-ir/src/mir/value.rs`, `ergotree-ir/src/mir/avl_tree_data.rs`,
`ergotree-ir/src/serialization/{data,constant}.rs`.

Boxes inside constants are values of a parameter type `B` with a codec `BoxCodec B`, so that the box model (whose
registers hold constants) can be plugged in.
-/

namespace Verif

/-- `AvlTreeData`, `mir/avl_tree_data.rs:59-68`; `flags` is the byte inside `AvlTreeFlags` (line 11). -/
structure AvlTreeData where
  digest : Bytes
  flags : Byte
  keyLength : BitVec 32
  valueLength : Option (BitVec 32)
  deriving DecidableEq

/-- `AvlTreeFlags::new`, `mir/avl_tree_data.rs:15-24`. -/
def avlFlagsNew (insert update remove : Bool) : Byte :=
  let i : Byte := if insert then 0 ||| 0x01 else 0
  let u := if update then i ||| 0x02 else i
  if remove then u ||| 0x04 else u

/-- `AvlTreeFlags::parse`, `mir/avl_tree_data.rs:32-37`. -/
def avlFlagsParse (b : Byte) : Byte :=
  avlFlagsNew (b &&& 0x01 != 0) (b &&& 0x02 != 0) (b &&& 0x04 != 0)

/-- `AvlTreeData::sigma_serialize`, `mir/avl_tree_data.rs:71-77` (`ADDigest` is 33 raw bytes). -/
def putAvl (a : AvlTreeData) : Bytes :=
  a.digest ++ putU8 a.flags ++ putU32 a.keyLength ++ putOptBox putU32 a.valueLength

/-- `AvlTreeData::sigma_parse`, `mir/avl_tree_data.rs:78-89`. -/
def getAvl : Parser AvlTreeData := do
  let digest ← readExact 33
  let f ← getU8
  let k ← getU32
  let v ← getOptBox getU32
  pure { digest := digest, flags := avlFlagsParse f, keyLength := k, valueLength := v }

/-- `Literal`, `mir/constant.rs:54-83`.  `G`: group elements, `B`: boxes.
Simplifications: `CollKind::NativeColl(CollByte)` and `CollKind::WrappedColl` (`mir/value.rs:47-57`) are two
constructors; `Opt(Box<Option<Literal>>)` is two constructors; `BigInt256` is an `Int` (its range is part of
`Spec.WellTyped`); `TupleItems` (2..255 items) is a list. -/
inductive Literal (G B : Type) where
  | unit
  | bool (b : Bool)
  | byte (v : BitVec 8)
  | short (v : BitVec 16)
  | int (v : BitVec 32)
  | long (v : BitVec 64)
  | bigInt (v : Int)
  | groupElement (g : G)
  | sigmaProp (p : SigmaBoolean G)
  | avlTree (a : AvlTreeData)
  | box (b : B)
  | collByte (bytes : List (BitVec 8))
  | coll (elem : SType) (items : List (Literal G B))
  | tup (items : List (Literal G B))
  | none
  | some (v : Literal G B)

/-- The box codec (`ErgoBox::sigma_serialize` / `sigma_parse`, `chain/ergo_box.rs:195-217`) as a parameter. -/
structure BoxCodec (B : Type) where
  ser : B → Outcome Bytes
  parse : Parser B

namespace Literal

/-- `i.try_extract_into::<bool>()`, `serialization/data.rs:59`. -/
def boolOf {G B : Type} : Literal G B → Option Bool
  | bool b => Option.some b
  | _ => Option.none

/-- `.map(..).collect::<Result<Vec<bool>, _>>()`, `serialization/data.rs:56-60`. -/
def boolsOf {G B : Type} : List (Literal G B) → Option (List Bool)
  | [] => Option.some []
  | x :: l => match boolOf x, boolsOf l with
    | Option.some b, Option.some bs => Option.some (b :: bs)
    | _, _ => Option.none

/-- `w.put_usize_as_u16_unwrapped(len)?`, `sigma-ser/src/vlq_encode.rs:56-59`: panics above 65535. -/
def putLen16 (n : Nat) : Outcome Bytes :=
  match putUsizeAsU16 n with
  | Option.some b => .ok b
  | Option.none => .panic

/-- The test `elem_tpe: SType::SBoolean`, `serialization/data.rs:52`. -/
def isBoolT : SType → Bool
  | .bool => true
  | _ => false

mutual
/-- `DataSerializer::sigma_serialize`, `serialization/data.rs:28-83`. -/
def ser {G B : Type} [DecidableEq G] (pc : PointCodec G) (bc : BoxCodec B) : Literal G B → Outcome Bytes
  | unit => .ok []
  | bool b => .ok (putU8 (if b then 1 else 0))
  | byte v => .ok (putI8 v)
  | short v => .ok (putI16 v)
  | int v => .ok (putI32 v)
  | long v => .ok (putI64 v)
  | bigInt v => .ok (putU16 (BitVec.ofNat 16 (toSignedBe v).length) ++ toSignedBe v)
  | groupElement g => .ok (putPoint pc g)
  | sigmaProp p => .ok (p.ser pc)
  | avlTree a => .ok (putAvl a)
  | box b => bc.ser b
  | collByte l => do
    let n ← putLen16 l.length
    pure (n ++ l)
  | coll e items => do
    let n ← putLen16 items.length
    let body ← if isBoolT e then
        match boolsOf items with
        | Option.some bs => Outcome.ok (putBits bs)
        | Option.none => Outcome.err
      else serAll pc bc items
    pure (n ++ body)
  | tup items => serAll pc bc items
  | none => .err
  | some _ => .err
/-- `items.iter().try_for_each(|e| DataSerializer::sigma_serialize(e, w))`, `serialization/data.rs:68-69, 72-74`. -/
def serAll {G B : Type} [DecidableEq G] (pc : PointCodec G) (bc : BoxCodec B) : List (Literal G B) → Outcome Bytes
  | [] => .ok []
  | x :: l => do
    let b ← ser pc bc x
    let bs ← serAll pc bc l
    pure (b ++ bs)
end

/-- The `SBigInt` arm, `serialization/data.rs:97-111`. -/
def parseBig {G B : Type} : Parser (Literal G B) := do
  let size ← getU16
  if 32 < size.toNat then Parser.fail
  else do
    let buf ← readExact size.toNat
    let n ← Parser.ofOption (bigInt256 (signedOfBe buf))
    pure (bigInt n)

mutual
/-- `DataSerializer::sigma_parse`, `serialization/data.rs:85-165`. -/
def parse {G B : Type} (pc : PointCodec G) (bc : BoxCodec B) : SType → Parser (Literal G B)
  | .bool => do
    let b ← getU8
    pure (bool (b != 0))
  | .byte => do
    let v ← getI8
    pure (byte v)
  | .short => do
    let v ← getI16
    pure (short v)
  | .int => do
    let v ← getI32
    pure (int v)
  | .long => do
    let v ← getI64
    pure (long v)
  | .bigInt => parseBig
  | .unit => pure unit
  | .groupElement => do
    let g ← getPoint pc
    pure (groupElement g)
  | .sigmaProp => do
    let p ← SigmaBoolean.parse pc
    pure (sigmaProp p)
  | .coll .byte => do
    let n ← getU16
    let buf ← readExact n.toNat
    pure (collByte buf)
  | .coll .bool => do
    let n ← getU16
    let bits ← getBits n.toNat
    pure (coll .bool (bits.map bool))
  | .coll e => do
    let n ← getU16
    let items ← replicateP n.toNat (parse pc bc e)
    pure (coll e items)
  | .tuple ts => do
    let items ← parseAll pc bc ts
    if 2 ≤ items.length ∧ items.length ≤ 255 then pure (tup items) else Parser.fail
  | .box => do
    let b ← bc.parse
    pure (box b)
  | .avlTree => do
    let a ← getAvl
    pure (avlTree a)
  | .typeVar _ => Parser.fail
  | .any => Parser.fail
  | .option _ => Parser.fail
  | .func _ _ _ => Parser.fail
  | .context => Parser.fail
  | .header => Parser.fail
  | .preHeader => Parser.fail
  | .global => Parser.fail
/-- `types.iter().try_for_each(|tpe| DataSerializer::sigma_parse(tpe, r).map(|v| items.push(v)))`,
`serialization/data.rs:146-148`. -/
def parseAll {G B : Type} (pc : PointCodec G) (bc : BoxCodec B) : List SType → Parser (List (Literal G B))
  | [] => pure []
  | t :: ts => do
    let v ← parse pc bc t
    let vs ← parseAll pc bc ts
    pure (v :: vs)
end

end Literal

/-- `Constant`, `mir/constant.rs:45-50`. -/
structure Constant (G B : Type) where
  tpe : SType
  v : Literal G B

namespace Constant

/-- `Constant::sigma_serialize`, `serialization/constant.rs:23-26`. -/
def ser {G B : Type} [DecidableEq G] (pc : PointCodec G) (bc : BoxCodec B) (c : Constant G B) : Outcome Bytes :=
  match c.tpe.ser with
  | none => .err
  | some t => do
    let d ← Literal.ser pc bc c.v
    pure (t ++ d)

/-- `Constant::parse_with_type_code`, `serialization/constant.rs:13-20`. -/
def parseCode {G B : Type} (utf8 : Bytes → Bool) (pc : PointCodec G) (bc : BoxCodec B) (code : Byte) :
    Parser (Constant G B) := do
  let tpe ← SType.parseCode utf8 (SType.parse utf8) code
  let v ← Literal.parse pc bc tpe
  pure { tpe := tpe, v := v }

/-- `Constant::sigma_parse`, `serialization/constant.rs:28-32`. -/
def parse {G B : Type} (utf8 : Bytes → Bool) (pc : PointCodec G) (bc : BoxCodec B) : Parser (Constant G B) := do
  let code ← getU8
  parseCode utf8 pc bc code

end Constant
end Verif
