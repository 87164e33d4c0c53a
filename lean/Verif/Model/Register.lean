import Verif.Model.Out
import Verif.Model.Fix
import Verif.Model.FMap

/-!
# Non-mandatory registers R4..R9

Source: `ergotree-ir/src/chain/ergo_box/register.rs`, `register/value.rs`, `register/id.rs`, `ergotree-ir/src/mir/tuple.rs`,
`ergotree-ir/src/serialization/expr.rs`.
-/

namespace Verif

/-- `NonMandatoryRegisterId`, `register/id.rs:98-111`. -/
inductive NmId where
  | R4 | R5 | R6 | R7 | R8 | R9
  deriving DecidableEq, Repr

namespace NmId

/-- `self as usize`, discriminants of `register/id.rs:98-111`. -/
def toNat : NmId → Nat
  | R4 => 4
  | R5 => 5
  | R6 => 6
  | R7 => 7
  | R8 => 8
  | R9 => 9

/-- `START_INDEX`, `register/id.rs:115`. -/
def startIndex : Nat := 4
/-- `END_INDEX`, `register/id.rs:117`. -/
def endIndex : Nat := 9
/-- `NUM_REGS`, `register/id.rs:120`. -/
def numRegs : Nat := 6
/-- `REG_IDS`, `register/id.rs:123-130`. -/
def regIds : List NmId := [R4, R5, R6, R7, R8, R9]

/-- `get_by_zero_index`, `register/id.rs:134-137` (an `assert!` guards the index). -/
def byZeroIndex (i : Nat) : Outcome NmId :=
  match regIds[i]? with
  | some r => .ok r
  | none => .panic

/-- `TryFrom<i8> for NonMandatoryRegisterId`, `register/id.rs:168-183`; `value as usize` of a negative number is huge. -/
def ofI8 (v : BitVec 8) : Outcome NmId :=
  let u := (v.signExtend 64).toNat
  if startIndex ≤ u ∧ u ≤ endIndex then byZeroIndex (u - startIndex) else .err

/-- `From<NonMandatoryRegisterId> for String`, `register/id.rs:140-144` (the ids are one digit long). -/
def toStr (r : NmId) : List Char := ['R', Char.ofNat (48 + r.toNat)]

/-- `TryFrom<String>`, `register/id.rs:146-166`.  Strings are lists of characters; `str.len()` counts bytes, so a single
character of two bytes in UTF-8 passes the length test and the slice `str[..1]` in its middle panics. -/
def ofStr (s : List Char) : Outcome NmId :=
  match s with
  | ['R', d] =>
    if 48 ≤ d.toNat ∧ d.toNat ≤ 57 then
      let index := d.toNat - 48
      if startIndex ≤ index ∧ index ≤ endIndex then byZeroIndex (index - startIndex) else .err
    else .err
  | [c] => if 0x80 ≤ c.toNat ∧ c.toNat ≤ 0x7FF then .panic else .err
  | _ => .err

end NmId

/-- The expressions a register can hold: constants, and tuples of such (`mir/tuple.rs:18-22` restricted to the items that
`tuple_to_constant`, `register/value.rs:128-137`, accepts). -/
inductive RItem (G B : Type) where
  | const (c : Constant G B)
  | tuple (items : List (RItem G B))

/-- `RegisterValue`, `register/value.rs:11-25`.  `ParsedTupleExpr` holds the items of the tuple; the constant cached in
`EvaluatedTuple` (`:29-33`) is recomputed by `RegVal.asConstant` (it is only ever set by `EvaluatedTuple::new`, `:37-44`).
The error message of `Invalid` is dropped. -/
inductive RegVal (G B : Type) where
  | parsed (c : Constant G B)
  | tupleExpr (items : List (RItem G B))
  | invalid (bytes : Bytes)

namespace RItem
variable {G B T : Type}

/-- `OpCode::TUPLE`, `serialization/op_code.rs:58` with `LAST_CONSTANT_CODE = 112`. -/
def tupleCode : Byte := 134

mutual
/-- `Expr::tpe` on these expressions; tuples: `mir/tuple.rs:33-37`. -/
def tpe : RItem G B → SType
  | const c => c.tpe
  | tuple l => .tuple (tpes l)
/-- List part of `tpe`, `mir/tuple.rs:33-37`. -/
def tpes : List (RItem G B) → List SType
  | [] => []
  | x :: l => tpe x :: tpes l
end

mutual
/-- The value part of `tuple_to_constant`, `register/value.rs:128-137`. -/
def value : RItem G B → Literal G B
  | const c => c.v
  | tuple l => .tup (values l)
/-- `t.items.try_mapped_ref(..)`, `register/value.rs:129-133`. -/
def values : List (RItem G B) → List (Literal G B)
  | [] => []
  | x :: l => value x :: values l
end

mutual
/-- `Expr::sigma_serialize` on these expressions, `serialization/expr.rs:217-226, 285` (writer without constant store);
tuples: `mir/tuple.rs:45-48`, where `items.len() as u8` truncates. -/
def ser [DecidableEq G] (E : Sers G B T) : RItem G B → Outcome Bytes
  | const c => c.ser E.pc E.bc
  | tuple l => do
    let bs ← serAll E l
    pure (putU8 tupleCode ++ putU8 (BitVec.ofNat 8 l.length) ++ bs)
/-- `self.items.iter().try_for_each(|i| i.sigma_serialize(w))`, `mir/tuple.rs:47`. -/
def serAll [DecidableEq G] (E : Sers G B T) : List (RItem G B) → Outcome Bytes
  | [] => .ok []
  | x :: l => do
    let b ← ser E x
    let bs ← serAll E l
    pure (b ++ bs)
end

/-- Body of `Expr::sigma_parse` (`serialization/expr.rs:87-92, 181, 302-305`, `mir/tuple.rs:50-59`) followed by the test of
`NonMandatoryRegisters::sigma_parse` (`register.rs:135-153`) and `tuple_to_constant` (`register/value.rs:128-137`) that
the result is a constant or a tuple of constants and tuples.  All other op codes either fail to parse or give an
expression that this test refuses (a placeholder is replaced by a constant only by readers created with
`new_with_substitute_placeholders`, `sigma_byte_reader.rs:29-39`, which is not how boxes are read), so they all fail here. -/
def parseBody (E : Sers G B T) (p : Parser (RItem G B)) : Parser (RItem G B) := do
  let tag ← getU8
  if tag.toNat ≤ 112 then do
    let c ← Constant.parseCode E.utf8 E.pc E.bc tag
    pure (const c)
  else if tag = tupleCode then do
    let n ← getU8
    let items ← replicateP n.toNat p
    if 2 ≤ items.length ∧ items.length ≤ 255 then pure (tuple items) else Parser.fail
  else Parser.fail

/-- Reader of one register expression, see `parseBody`, `serialization/expr.rs:87-92, 302-305`. -/
def parse (E : Sers G B T) : Parser (RItem G B) := fixP (parseBody E)

end RItem

namespace RegVal
variable {G B T : Type}

/-- The match of `register.rs:136-153` on the parsed expression. -/
def ofItem : RItem G B → RegVal G B
  | .const c => parsed c
  | .tuple l => tupleExpr l

/-- `RegisterValue::as_constant`, `register/value.rs:73-82`. -/
def asConstant : RegVal G B → Outcome (Constant G B)
  | parsed c => .ok c
  | tupleExpr l => .ok ⟨.tuple (RItem.tpes l), .tup (RItem.values l)⟩
  | invalid _ => .err

/-- Writing one register inside a box, `register.rs:118-127`: unparseable values are refused. -/
def ser [DecidableEq G] (E : Sers G B T) : RegVal G B → Outcome Bytes
  | parsed c => (RItem.const c).ser E
  | tupleExpr l => (RItem.tuple l).ser E
  | invalid _ => .err

/-- `RegisterValue::sigma_serialize_bytes`, `register/value.rs:86-95` (`unwrap`s panic). -/
def serBytes [DecidableEq G] (E : Sers G B T) : RegVal G B → Outcome Bytes
  | invalid bytes => .ok bytes
  | v => match v.ser E with
    | .ok b => .ok b
    | _ => .panic

/-- `RegisterValue::sigma_parse_bytes`, `register/value.rs:98-123`; bytes after the expression are ignored. -/
def parseBytes (E : Sers G B T) (bytes : Bytes) : RegVal G B :=
  match RItem.parse E bytes with
  | some (i, _) => ofItem i
  | none => invalid bytes

end RegVal

/-- `NonMandatoryRegisters`, `register.rs:32`. -/
abbrev Regs (G B : Type) := List (RegVal G B)

namespace Regs
variable {G B T : Type}

/-- `MAX_SIZE`, `register.rs:36`. -/
def maxSize : Nat := NmId.numRegs

/-- `TryFrom<Vec<RegisterValue>>`, `register.rs:89-99`. -/
def ofVec (l : List (RegVal G B)) : Option (Regs G B) := if l.length > maxSize then none else some l

/-- The `try_for_each` over `REG_IDS.iter().take(regs_num)`, `register.rs:208-214`. -/
def collect (m : FMap NmId (RegVal G B)) : List NmId → Option (Regs G B)
  | [] => some []
  | r :: rs => do
    let v ← m.get r
    let l ← collect m rs
    pure (v :: l)

/-- `TryFrom<HashMap<NonMandatoryRegisterId, RegisterValue>>`, `register.rs:198-218`. -/
def ofMap (m : FMap NmId (RegVal G B)) : Option (Regs G B) :=
  if m.length > maxSize then none else collect m (NmId.regIds.take m.length)

/-- `NonMandatoryRegisters::new`, `register.rs:44-52`. -/
def new (m : FMap NmId (Constant G B)) : Option (Regs G B) := ofMap (m.map fun p => (p.1, RegVal.parsed p.2))

/-- `From<NonMandatoryRegisters> for HashMap`, `register.rs:189-196` (at most six values, so `get_by_zero_index` does not
panic). -/
def toMap (rs : Regs G B) : FMap NmId (RegVal G B) := NmId.regIds.zip rs

/-- `NonMandatoryRegisters::get`, `register.rs:65-67`. -/
def get (rs : Regs G B) (r : NmId) : Option (RegVal G B) := rs[r.toNat]?

/-- `NonMandatoryRegisters::get_constant`, `register.rs:71-85`. -/
def getConstant (rs : Regs G B) (r : NmId) : Outcome (Option (Constant G B)) :=
  match rs[r.toNat - NmId.startIndex]? with
  | some v => v.asConstant >>= fun c => .ok (some c)
  | none => .ok none

/-- `sigma_serialize`, `register.rs:115-129`. -/
def ser [DecidableEq G] (E : Sers G B T) (rs : Regs G B) : Outcome Bytes := do
  let bs ← serMany (RegVal.ser E) rs
  pure (putU8 (BitVec.ofNat 8 rs.length) ++ bs)

/-- `sigma_parse`, `register.rs:131-157`. -/
def parse (E : Sers G B T) : Parser (Regs G B) := do
  let n ← getU8
  let l ← replicateP n.toNat (RItem.parse E)
  Parser.ofOption (ofVec (l.map RegVal.ofItem))

end Regs
end Verif
