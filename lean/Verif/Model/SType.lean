import Verif.Model.Vlq
import Verif.Model.Fix

/-!
# Script types and their byte codec

Source: `ergotree-ir/src/types/{stype,stype_param,stuple,sfunc}.rs`, `ergotree-ir/src/serialization/types.rs`.
-/

namespace Verif

/-- `SType`, `ergotree-ir/src/types/stype.rs:24-65`.
Simplifications: `STuple.items` (`BoundedVec<SType, 2, 255>`, `stuple.rs:13`) is a plain list, `STypeVar.name_bytes`
(`BoundedVec<u8, 1, 254>` holding UTF-8, `stype_param.rs:18-21`) is a byte list (the bounds are `Spec.WfType`), and a
type parameter of `SFunc` (`stype_param.rs:92-98`) is only its `ident` (nothing in the code sets the bounds). -/
inductive SType where
  | typeVar (name : Bytes)
  | any
  | unit
  | bool
  | byte
  | short
  | int
  | long
  | bigInt
  | groupElement
  | sigmaProp
  | box
  | avlTree
  | option (elem : SType)
  | coll (elem : SType)
  | tuple (items : List SType)
  | func (dom : List SType) (range : SType) (params : List Bytes)
  | context
  | header
  | preHeader
  | global

namespace SType

mutual
/-- Decidable equality (`derive(PartialEq, Eq)`, `stype.rs:23`). -/
def beq : SType → SType → Bool
  | typeVar a, typeVar b => a == b
  | any, any => true
  | unit, unit => true
  | bool, bool => true
  | byte, byte => true
  | short, short => true
  | int, int => true
  | long, long => true
  | bigInt, bigInt => true
  | groupElement, groupElement => true
  | sigmaProp, sigmaProp => true
  | box, box => true
  | avlTree, avlTree => true
  | option a, option b => beq a b
  | coll a, coll b => beq a b
  | tuple a, tuple b => beqList a b
  | func d r p, func d' r' p' => beqList d d' && beq r r' && p == p'
  | context, context => true
  | header, header => true
  | preHeader, preHeader => true
  | global, global => true
  | _, _ => false
/-- List part of `beq`, `ergotree-ir/src/types/stype.rs:23`. -/
def beqList : List SType → List SType → Bool
  | [], [] => true
  | a :: l, b :: l' => beq a b && beqList l l'
  | _, _ => false
end

/-- Codes 1..8 of the embeddable primitive types, `serialization/types.rs:20-27`. -/
def primCode : SType → Option Byte
  | bool => some 1
  | byte => some 2
  | short => some 3
  | int => some 4
  | long => some 5
  | bigInt => some 6
  | groupElement => some 7
  | sigmaProp => some 8
  | _ => none

/-- Inverse table of `primCode` (the match arms `serialization/types.rs:182-189`). -/
def primOf : Nat → Option SType
  | 1 => some bool
  | 2 => some byte
  | 3 => some short
  | 4 => some int
  | 5 => some long
  | 6 => some bigInt
  | 7 => some groupElement
  | 8 => some sigmaProp
  | _ => none

/-- The `SOption` arm, `serialization/types.rs:365-399`; `enc` is the encoding of `elem`. -/
def encOption (elem : SType) (enc : Option Bytes) : Option Bytes :=
  match primCode elem with
  | some p => some [36 + p]
  | none =>
    match elem with
    | coll inner =>
      match primCode inner with
      | some p => some [48 + p]
      | none => enc.map (36 :: ·)
    | _ => enc.map (36 :: ·)

/-- The `SColl` arm, `serialization/types.rs:401-435`; `enc` is the encoding of `elem`. -/
def encColl (elem : SType) (enc : Option Bytes) : Option Bytes :=
  match primCode elem with
  | some p => some [12 + p]
  | none =>
    match elem with
    | coll inner =>
      match primCode inner with
      | some p => some [24 + p]
      | none => enc.map (12 :: ·)
    | _ => enc.map (12 :: ·)

/-- The two-element `STuple` arm, `serialization/types.rs:437-521`.  The arm `(SShort, SShort)` is missing in the code
(lines 438-449), so that pair falls through to `(SShort, t2)`. -/
def encPair (t1 t2 : SType) (e1 e2 : Option Bytes) : Option Bytes :=
  match primCode t1, primCode t2 with
  | some p1, some p2 =>
    if p1 = p2 ∧ p1 ≠ 3 then some [84 + p1] else e2.map ((60 + p1) :: ·)
  | some p1, none => e2.map ((60 + p1) :: ·)
  | none, some p2 => e1.map ((72 + p2) :: ·)
  | none, none => do
    let b1 ← e1
    let b2 ← e2
    pure (60 :: (b1 ++ b2))

/-- Sequential writes: fails if one of them fails, `ergotree-ir/src/serialization/types.rs:437-521`. -/
def concatOpt : List (Option Bytes) → Option Bytes
  | [] => some []
  | none :: _ => none
  | some b :: l => (concatOpt l).map (b ++ ·)

/-- The `STuple` arm, `serialization/types.rs:436-541`; `encs` are the encodings of the items
(`items.len() as u8`, line 538). -/
def encTuple (items : List SType) (encs : List (Option Bytes)) : Option Bytes :=
  match items, encs with
  | [t1, t2], [e1, e2] => encPair t1 t2 e1 e2
  | [_, _, _], _ => (concatOpt encs).map (72 :: ·)
  | [_, _, _, _], _ => (concatOpt encs).map (84 :: ·)
  | _, _ => (concatOpt encs).map (96 :: BitVec.ofNat 8 items.length :: ·)

mutual
/-- `SType::sigma_serialize`, `serialization/types.rs:341-549`; `none` is `Err(NotSupported)` for `SFunc`.
Type variable: `stype_param.rs:75-79` (`len() as u8`). -/
def ser : SType → Option Bytes
  | func _ _ _ => none
  | any => some [97]
  | unit => some [98]
  | bool => some [1]
  | byte => some [2]
  | short => some [3]
  | int => some [4]
  | long => some [5]
  | bigInt => some [6]
  | groupElement => some [7]
  | sigmaProp => some [8]
  | box => some [99]
  | avlTree => some [100]
  | context => some [101]
  | header => some [104]
  | preHeader => some [105]
  | global => some [106]
  | option e => encOption e (ser e)
  | coll e => encColl e (ser e)
  | tuple items => encTuple items (serItems items)
  | typeVar name => some (103 :: BitVec.ofNat 8 name.length :: name)
/-- Encodings of the items of a tuple, `ergotree-ir/src/serialization/types.rs:437-521`. -/
def serItems : List SType → List (Option Bytes)
  | [] => []
  | t :: l => ser t :: serItems l
end

/-- `STypeVar::sigma_parse` and `new_from_bytes`, `stype_param.rs:36-50, 84-89`; `utf8` decides UTF-8 validity
(`String::from_utf8`). -/
def parseVar (utf8 : Bytes → Bool) : Parser SType := do
  let n ← getU8
  let bytes ← readExact n.toNat
  if utf8 bytes = true ∧ 1 ≤ bytes.length ∧ bytes.length ≤ 254 then pure (typeVar bytes) else Parser.fail

/-- One group of match arms of `parse_with_type_code`: codes `base + 1 .. base + 8`, `ergotree-ir/src/serialization/types.rs:176-340`. -/
def onPrim (i : Nat) (k : SType → Parser SType) (e : Parser SType) : Parser SType :=
  match primOf i with
  | some t => k t
  | none => e

/-- `SType::parse_with_type_code`, `serialization/types.rs:176-328`; `p` is the recursive `SType::sigma_parse`.
An unknown code is an error (`TypeCode::parse`, lines 149-154). -/
def parseCode (utf8 : Bytes → Bool) (p : Parser SType) (c : Byte) : Parser SType :=
  onPrim c.toNat pure <|
  if c = 12#8 then do
    let t ← p
    pure (coll t)
  else onPrim (c.toNat - 12) (fun t => pure (coll t)) <|
  onPrim (c.toNat - 24) (fun t => pure (coll (coll t))) <|
  if c = 36#8 then do
    let t ← p
    pure (option t)
  else onPrim (c.toNat - 36) (fun t => pure (option t)) <|
  onPrim (c.toNat - 48) (fun t => pure (option (coll t))) <|
  if c = 60#8 then do
    let t1 ← p
    let t2 ← p
    pure (tuple [t1, t2])
  else onPrim (c.toNat - 60) (fun t1 => do
    let t2 ← p
    pure (tuple [t1, t2])) <|
  if c = 72#8 then do
    let t1 ← p
    let t2 ← p
    let t3 ← p
    pure (tuple [t1, t2, t3])
  else onPrim (c.toNat - 72) (fun t2 => do
    let t1 ← p
    pure (tuple [t1, t2])) <|
  if c = 84#8 then do
    let t1 ← p
    let t2 ← p
    let t3 ← p
    let t4 ← p
    pure (tuple [t1, t2, t3, t4])
  else onPrim (c.toNat - 84) (fun t => pure (tuple [t, t])) <|
  if c = 96#8 then do
    let n ← getU8
    let items ← replicateP n.toNat p
    if 2 ≤ items.length ∧ items.length ≤ 255 then pure (tuple items) else Parser.fail
  else if c = 97#8 then pure any
  else if c = 98#8 then pure unit
  else if c = 99#8 then pure box
  else if c = 100#8 then pure avlTree
  else if c = 101#8 then pure context
  else if c = 103#8 then parseVar utf8
  else if c = 104#8 then pure header
  else if c = 105#8 then pure preHeader
  else if c = 106#8 then pure global
  else Parser.fail

/-- Body of `SType::sigma_parse`, `serialization/types.rs:551-555`. -/
def parseBody (utf8 : Bytes → Bool) (p : Parser SType) : Parser SType := do
  let c ← getU8
  parseCode utf8 p c

/-- `SType::sigma_parse`, `serialization/types.rs:551-555`. -/
def parse (utf8 : Bytes → Bool) : Parser SType := fixP (parseBody utf8)

end SType
end Verif
