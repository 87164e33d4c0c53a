import Verif.Model.Constant
import Verif.Model.Unify
import Verif.Model.Out

/-!
# Script expressions and their byte codec

Source: `ergotree-ir/src/mir/*.rs`, `ergotree-ir/src/serialization/{expr,bin_op,method_call,property_call,serializable,
constant_placeholder,constant_store,val_def_type_store,sigma_byte_reader,sigma_byte_writer,op_code}.rs`.

The nodes of `Expr` (`mir/expr.rs:88-227`) are grouped by the shape of their byte form.  `SOp` are the nodes that consist of
an op code and a fixed number of sub-expressions.  Source spans (`Spanned`) are not modelled (they are not serialized).
Types that Rust caches in a node when it is built (`OptionGet.elem_tpe`, `Map.mapper_sfunc`, `ByIndex.input_elem_tpe`,
`SelectField.field_tpe`, `Apply.tpe`, `FuncValue.tpe`, …) are recomputed from the operands.
-/

namespace Verif

/-- Nodes with a fixed number of operands and nothing else, `mir/expr.rs:88-227`. -/
inductive SOp where
  | height | inputs | outputs | selfBox | minerPubKey | groupGenerator | global | context
  | and | or | xorOf | logicalNot | negation | bitInversion | optionGet | optionIsDefined | extractAmount | extractBytes
  | extractBytesWithNoRef | extractScriptBytes | extractCreationInfo | extractId | sizeOf | boolToSigmaProp
  | createProveDlog | sigmaPropBytes | decodePoint | calcBlake2b256 | calcSha256 | byteArrayToLong | byteArrayToBigInt
  | longToByteArray
  | append | xor | atleast | map | filter | anyOf | forAll | optionGetOrElse | multiplyGroup | exponentiate
  | fold | slice | ifOp | substConstants | treeLookup
  | createProveDhTuple
  deriving DecidableEq, Repr

/-- `BinOpKind` with its four parts, `mir/bin_op.rs:19-34, 67-80, 111-118, 143-150, 175-184`. -/
inductive BinK where
  | plus | minus | multiply | divide | max | min | modulo
  | eq | neq | ge | gt | le | lt
  | and | or | xor
  | bitOr | bitAnd | bitXor
  deriving DecidableEq, Repr

/-- What an op code stands for: the arms of `parse_with_tag`, `serialization/expr.rs:94-196`. -/
inductive Kind where
  | simple (o : SOp)
  | bin (k : BinK)
  | placeholder | valUse | bools | cast (up : Bool) | extractReg | selectField | getVar | deserCtx | deserReg | byIndex
  | createAvl | coll | tuple | sigma (isAnd : Bool) | func | apply | block | valDef | method | property
  deriving DecidableEq, Repr

namespace SOp

/-- Number of operands: the `sigma_parse` of each node (`mir/unary_op.rs:29-33` for one operand; `coll_append.rs:71-75`,
`xor.rs:61-65`, `atleast.rs:61-65`, `coll_map.rs:69-73`, `coll_filter.rs:67-71`, `coll_exists.rs:67-71`, `coll_forall.rs:67-71`,
`option_get_or_else.rs:58-62`, `multiply_group.rs:53-57`, `exponentiate.rs:53-57`; `coll_fold.rs:70-79`, `coll_slice.rs:72-77`,
`if_op.rs:40-49`, `subst_const.rs:66-71`, `tree_lookup.rs:53-58`; `create_prove_dh_tuple.rs:60-66`;
none: `serialization/expr.rs:109-115, 120`). -/
def arity : SOp → Nat
  | height | inputs | outputs | selfBox | minerPubKey | groupGenerator | global | context => 0
  | append | xor | atleast | map | filter | anyOf | forAll | optionGetOrElse | multiplyGroup | exponentiate => 2
  | fold | slice | ifOp | substConstants | treeLookup => 3
  | createProveDhTuple => 4
  | _ => 1

/-- `OP_CODE` of each node, `serialization/op_code.rs` (`112 + shift`). -/
def code : SOp → Byte
  | height => 163 | inputs => 164 | outputs => 165 | selfBox => 167 | minerPubKey => 172 | groupGenerator => 130
  | global => 221 | context => 254
  | and => 150 | or => 151 | xorOf => 255 | logicalNot => 239 | negation => 240 | bitInversion => 241
  | optionGet => 228 | optionIsDefined => 230 | extractAmount => 193 | extractBytes => 195
  | extractBytesWithNoRef => 196 | extractScriptBytes => 194 | extractCreationInfo => 199 | extractId => 197
  | sizeOf => 177 | boolToSigmaProp => 209 | createProveDlog => 205 | sigmaPropBytes => 208 | decodePoint => 238
  | calcBlake2b256 => 203 | calcSha256 => 204 | byteArrayToLong => 124 | byteArrayToBigInt => 123
  | longToByteArray => 122
  | append => 179 | xor => 155 | atleast => 152 | map => 173 | filter => 181 | anyOf => 174 | forAll => 175
  | optionGetOrElse => 229 | multiplyGroup => 160 | exponentiate => 159
  | fold => 176 | slice => 180 | ifOp => 149 | substConstants => 116 | treeLookup => 183
  | createProveDhTuple => 206

end SOp

/-- `SType::is_numeric`, `types/stype.rs:71-76`. -/
def SType.isNumeric : SType → Bool
  | .byte | .short | .int | .long | .bigInt => true
  | _ => false

/-- `Expr::post_eval_tpe` on the type of the expression, `mir/expr.rs:303-308`. -/
def SType.postEval : SType → SType
  | .func _ r _ => r
  | t => t

/-- `Coll[Byte]`, e.g. `ergotree-ir/src/types/stype.rs:166`. -/
def SType.collByte : SType := .coll .byte

namespace SOp
open SType

/-- `check_post_eval_tpe`, `mir/expr.rs:311-326`. -/
def evalsTo (t expected : SType) : Bool := beq t.postEval expected

/-- The condition of the collection predicates, `mir/coll_filter.rs:26-48`, `coll_exists.rs:26-48`, `coll_forall.rs:26-48`. -/
def predicateOn (input cond : SType) : Bool :=
  match input.postEval, cond with
  | coll t, func d r _ => beqList d [t] && beq r bool
  | _, _ => false

/-- The test made when the node is *parsed*, on the types of its operands.
`bit_inversion.rs:34-41`, `negation.rs:34-41`, `logical_not.rs:34-35`, `option_get.rs:36-46`, `option_is_defined.rs:38-46`,
`extract_*.rs:35-36` (37 for creation info), `coll_size.rs:36-43`, `bool_to_sigma.rs:39-40`, `create_provedlog.rs:35-36`,
`sigma_prop_bytes.rs:35-36`, `decode_point.rs:37-38`, `calc_blake2b256.rs:35-36`, `calc_sha256.rs:35-36`,
`byte_array_to_long.rs:36-37`, `byte_array_to_bigint.rs:36-37`, `long_to_byte_array.rs:40`, `coll_append.rs:25-48`,
`xor.rs:23-42`, `atleast.rs:25-37`, `coll_map.rs:27-44`, `coll_filter.rs:25-48`, `coll_exists.rs:25-48`,
`coll_forall.rs:25-48`, `option_get_or_else.rs:25-38`, `coll_slice.rs:26-47`, `subst_const.rs:30-47`.
`And`, `Or`, `XorOf`, `Fold`, `If`, `TreeLookup`, `CreateProveDhTuple`, `MultiplyGroup` and `Exponentiate` are parsed without a
test (`and.rs:37-41`, `or.rs:34-38`, `xor_of.rs:37-41`, `coll_fold.rs:70-79`, `if_op.rs:40-49`, `tree_lookup.rs:53-58`,
`create_prove_dh_tuple.rs:60-66`, `multiply_group.rs:53-57`, `exponentiate.rs:53-57`). -/
def check : SOp → List SType → Bool
  | negation, [t] => t.postEval.isNumeric
  | bitInversion, [t] => t.postEval.isNumeric
  | logicalNot, [t] => evalsTo t bool
  | optionGet, [t] => match t.postEval with | option _ => true | _ => false
  | optionIsDefined, [t] => match t.postEval with | option _ => true | _ => false
  | extractAmount, [t] => evalsTo t box
  | extractBytes, [t] => evalsTo t box
  | extractBytesWithNoRef, [t] => evalsTo t box
  | extractScriptBytes, [t] => evalsTo t box
  | extractCreationInfo, [t] => evalsTo t box
  | extractId, [t] => evalsTo t box
  | sizeOf, [t] => match t.postEval with | coll _ => true | _ => false
  | boolToSigmaProp, [t] => evalsTo t bool
  | createProveDlog, [t] => evalsTo t groupElement
  | sigmaPropBytes, [t] => evalsTo t sigmaProp
  | decodePoint, [t] => evalsTo t collByte
  | calcBlake2b256, [t] => evalsTo t collByte
  | calcSha256, [t] => evalsTo t collByte
  | byteArrayToLong, [t] => evalsTo t collByte
  | byteArrayToBigInt, [t] => evalsTo t collByte
  | longToByteArray, [t] => evalsTo t long
  | append, [a, b] => match a.postEval, b.postEval with | coll x, coll y => beq x y | _, _ => false
  | xor, [a, b] => evalsTo a collByte && evalsTo b collByte
  | atleast, [bound, input] => evalsTo input (coll sigmaProp) && evalsTo bound int
  | map, [input, f] => match input.postEval, f with | coll t, func d _ _ => beqList d [t] | _, _ => false
  | filter, [input, f] => predicateOn input f
  | anyOf, [input, f] => predicateOn input f
  | forAll, [input, f] => predicateOn input f
  | optionGetOrElse, [input, d] => match input.postEval with | option t => evalsTo d t | _ => false
  | slice, [input, a, b] =>
    (match input.postEval with | coll _ => true | _ => false) && evalsTo a int && evalsTo b int
  | substConstants, [s, p, v] =>
    evalsTo s collByte && evalsTo p (coll int) && (match v.postEval with | coll _ => true | _ => false)
  | _, _ => true

/-- The `tpe` of the node, from the types of its operands (same files as `check`; global variables:
`mir/global_vars.rs:28-37`, `mir/expr.rs:243-244`).  The fallback `any` is only reached for operands refused by `check` or of
the wrong number. -/
def resTpe : SOp → List SType → SType
  | height, _ => int
  | inputs, _ => coll box
  | outputs, _ => coll box
  | selfBox, _ => box
  | minerPubKey, _ => collByte
  | groupGenerator, _ => groupElement
  | global, _ => SType.global
  | context, _ => SType.context
  | and, _ => bool
  | or, _ => bool
  | xorOf, _ => bool
  | logicalNot, _ => bool
  | negation, [t] => t.postEval
  | bitInversion, [t] => t.postEval
  | optionGet, [t] => match t.postEval with | option e => e | _ => any
  | optionIsDefined, _ => bool
  | extractAmount, _ => long
  | extractBytes, _ => collByte
  | extractBytesWithNoRef, _ => collByte
  | extractScriptBytes, _ => collByte
  | extractCreationInfo, _ => tuple [int, collByte]
  | extractId, _ => collByte
  | sizeOf, _ => int
  | boolToSigmaProp, _ => sigmaProp
  | createProveDlog, _ => sigmaProp
  | sigmaPropBytes, _ => collByte
  | decodePoint, _ => groupElement
  | calcBlake2b256, _ => collByte
  | calcSha256, _ => collByte
  | byteArrayToLong, _ => long
  | byteArrayToBigInt, _ => bigInt
  | longToByteArray, _ => collByte
  | append, [a, _] => a
  | xor, _ => collByte
  | atleast, _ => sigmaProp
  | map, [_, func _ r _] => coll r
  | filter, [i, _] => match i.postEval with | coll t => coll t | _ => any
  | anyOf, _ => bool
  | forAll, _ => bool
  | optionGetOrElse, [i, _] => match i.postEval with | option t => t | _ => any
  | multiplyGroup, [l, _] => l
  | exponentiate, [l, _] => l
  | fold, [_, z, _] => z
  | slice, [i, _, _] => i
  | ifOp, [_, t, _] => t
  | substConstants, _ => collByte
  | treeLookup, _ => option collByte
  | createProveDhTuple, _ => sigmaProp
  | _, _ => any

end SOp

namespace BinK

/-- `From<BinOpKind> for OpCode`, `mir/bin_op.rs:36-48, 82-93, 120-128, 152-160, 186-195`. -/
def code : BinK → Byte
  | plus => 154 | minus => 153 | multiply => 156 | divide => 157 | max => 162 | min => 161 | modulo => 158
  | eq => 147 | neq => 148 | ge => 146 | gt => 145 | le => 144 | lt => 143
  | and => 237 | or => 236 | xor => 244
  | bitOr => 242 | bitAnd => 243 | bitXor => 245

/-- `BinOp::tpe`, `mir/bin_op.rs:221-228`. -/
def resTpe (k : BinK) (left : SType) : SType :=
  match k with
  | eq | neq | ge | gt | le | lt | and | or | xor => .bool
  | _ => left

end BinK

namespace Kind

/-- Op codes, `serialization/op_code.rs`. -/
def code : Kind → Byte
  | simple o => o.code
  | bin k => k.code
  | placeholder => 115
  | valUse => 114
  | bools => 133
  | cast up => if up then 126 else 125
  | extractReg => 198
  | selectField => 140
  | getVar => 227
  | deserCtx => 212
  | deserReg => 213
  | byIndex => 178
  | createAvl => 182
  | coll => 131
  | tuple => 134
  | sigma isAnd => if isAnd then 234 else 235
  | func => 217
  | apply => 218
  | block => 216
  | valDef => 214
  | method => 220
  | property => 219

/-- The dispatch of `parse_with_tag`, `serialization/expr.rs:93-202` (op codes: `serialization/op_code.rs`). -/
def ofCode (tag : Byte) : Option Kind :=
  match tag.toNat with
  | 179 => some (simple .append)
  | 176 => some (simple .fold)
  | 115 => some placeholder
  | 163 => some (simple .height)
  | 167 => some (simple .selfBox)
  | 164 => some (simple .inputs)
  | 165 => some (simple .outputs)
  | 172 => some (simple .minerPubKey)
  | 130 => some (simple .groupGenerator)
  | 221 => some (simple .global)
  | 219 => some property
  | 220 => some method
  | 254 => some (simple .context)
  | 228 => some (simple .optionGet)
  | 230 => some (simple .optionIsDefined)
  | 229 => some (simple .optionGetOrElse)
  | 198 => some extractReg
  | 194 => some (simple .extractScriptBytes)
  | 195 => some (simple .extractBytes)
  | 196 => some (simple .extractBytesWithNoRef)
  | 199 => some (simple .extractCreationInfo)
  | 197 => some (simple .extractId)
  | 147 => some (bin .eq)
  | 148 => some (bin .neq)
  | 240 => some (simple .negation)
  | 241 => some (simple .bitInversion)
  | 239 => some (simple .logicalNot)
  | 237 => some (bin .and)
  | 236 => some (bin .or)
  | 244 => some (bin .xor)
  | 145 => some (bin .gt)
  | 143 => some (bin .lt)
  | 146 => some (bin .ge)
  | 144 => some (bin .le)
  | 154 => some (bin .plus)
  | 153 => some (bin .minus)
  | 156 => some (bin .multiply)
  | 157 => some (bin .divide)
  | 162 => some (bin .max)
  | 161 => some (bin .min)
  | 158 => some (bin .modulo)
  | 242 => some (bin .bitOr)
  | 243 => some (bin .bitAnd)
  | 245 => some (bin .bitXor)
  | 216 => some block
  | 217 => some func
  | 218 => some apply
  | 214 => some valDef
  | 114 => some valUse
  | 193 => some (simple .extractAmount)
  | 140 => some selectField
  | 203 => some (simple .calcBlake2b256)
  | 204 => some (simple .calcSha256)
  | 150 => some (simple .and)
  | 151 => some (simple .or)
  | 155 => some (simple .xor)
  | 152 => some (simple .atleast)
  | 131 => some coll
  | 133 => some bools
  | 173 => some (simple .map)
  | 181 => some (simple .filter)
  | 174 => some (simple .anyOf)
  | 175 => some (simple .forAll)
  | 209 => some (simple .boolToSigmaProp)
  | 126 => some (cast true)
  | 125 => some (cast false)
  | 149 => some (simple .ifOp)
  | 178 => some byIndex
  | 177 => some (simple .sizeOf)
  | 180 => some (simple .slice)
  | 205 => some (simple .createProveDlog)
  | 206 => some (simple .createProveDhTuple)
  | 208 => some (simple .sigmaPropBytes)
  | 134 => some tuple
  | 238 => some (simple .decodePoint)
  | 116 => some (simple .substConstants)
  | 124 => some (simple .byteArrayToLong)
  | 123 => some (simple .byteArrayToBigInt)
  | 122 => some (simple .longToByteArray)
  | 234 => some (sigma true)
  | 235 => some (sigma false)
  | 227 => some getVar
  | 213 => some deserReg
  | 212 => some deserCtx
  | 160 => some (simple .multiplyGroup)
  | 159 => some (simple .exponentiate)
  | 255 => some (simple .xorOf)
  | 183 => some (simple .treeLookup)
  | 182 => some createAvl
  | _ => none

end Kind

/-- `SFunc`, `types/sfunc.rs:9-16`. -/
structure FuncSig where
  dom : List SType
  range : SType
  params : List Bytes

/-- `SFunc::with_subst`, `types/sfunc.rs:42-57`. -/
def FuncSig.withSubst (s : Subst) (f : FuncSig) : FuncSig :=
  { dom := SType.withSubsts s f.dom, range := SType.withSubst s f.range,
    params := f.params.filter fun v => !s.contains v }

/-- Script expressions, `mir/expr.rs:88-227`.  A method is kept as its type code, its method id and its (specialized)
signature (`types/smethod.rs:32-36, 99-103`; the name is a function of the ids).  An optional sub-expression is a list with
at most one element. -/
inductive Expr (G B : Type) where
  | const (c : Constant G B)
  | placeholder (id : BitVec 32) (tpe : SType)
  | valUse (id : BitVec 32) (tpe : SType)
  | bools (l : List Bool)
  | op (o : SOp) (args : List (Expr G B))
  | bin (k : BinK) (left right : Expr G B)
  | cast (up : Bool) (input : Expr G B) (tpe : SType)
  | extractReg (input : Expr G B) (reg : Byte) (elem : SType)
  | selectField (input : Expr G B) (index : Byte)
  | getVar (id : Byte) (tpe : SType)
  | deserCtx (tpe : SType) (id : Byte)
  | deserReg (reg : Byte) (tpe : SType) (default : List (Expr G B))
  | byIndex (input index : Expr G B) (default : List (Expr G B))
  | createAvl (flags digest keyLength : Expr G B) (valueLength : List (Expr G B))
  | coll (elem : SType) (items : List (Expr G B))
  | tuple (items : List (Expr G B))
  | sigma (isAnd : Bool) (items : List (Expr G B))
  | func (args : List (BitVec 32 × SType)) (body : Expr G B)
  | apply (f : Expr G B) (args : List (Expr G B))
  | block (items : List (Expr G B)) (result : Expr G B)
  | valDef (id : BitVec 32) (rhs : Expr G B)
  | method (typeId methodId : Byte) (sig : FuncSig) (obj : Expr G B) (args : List (Expr G B))
  | property (typeId methodId : Byte) (sig : FuncSig) (obj : Expr G B)

namespace Expr
variable {G B T : Type}

mutual
/-- `Expr::tpe`, `mir/expr.rs:231-300`, with `select_field.rs:71-107`, `coll_by_index.rs:33-39, 65-67`,
`collection.rs:60-68`, `tuple.rs:33-37`, `func_value.rs:58-71`, `apply.rs:27-42`, `block.rs:31-33`, `val_def.rs:50-52`,
`method_call.rs:60-62`, `property_call.rs:47-49`, `extract_reg_as.rs:49-51`, `get_var.rs:22-24`,
`deserialize_context.rs:25-27`, `deserialize_register.rs:25-27`, `upcast.rs:48-50`, `downcast.rs:48-50`.  The fallback `any`
is only reached for operands refused by the constructors. -/
def tpe : Expr G B → SType
  | const c => c.tpe
  | placeholder _ t => t
  | valUse _ t => t
  | bools _ => .coll .bool
  | op o args => o.resTpe (tpes args)
  | bin k l _ => k.resTpe (tpe l)
  | cast _ _ t => t
  | extractReg _ _ t => .option t
  | selectField e i =>
    match tpe e with
    | .tuple ts => (ts[i.toNat - 1]?).getD .any
    | _ => .any
  | getVar _ t => .option t
  | deserCtx t _ => t
  | deserReg _ t _ => t
  | byIndex e _ _ =>
    match (tpe e).postEval with
    | .coll t => t
    | _ => .any
  | createAvl _ _ _ _ => .avlTree
  | coll t _ => .coll t
  | tuple items => .tuple (tpes items)
  | sigma _ _ => .sigmaProp
  | func args body => .func (args.map Prod.snd) (tpe body) []
  | apply f _ =>
    match tpe f with
    | .func _ r _ => r
    | _ => .any
  | block _ r => tpe r
  | valDef _ rhs => tpe rhs
  | method _ _ sig _ _ => sig.range
  | property _ _ sig _ => sig.range
/-- Types of a list of expressions, `mir/expr.rs:231-300`. -/
def tpes : List (Expr G B) → List SType
  | [] => []
  | e :: l => tpe e :: tpes l
end

/-- `SType::sigma_serialize` with its `Err`, `ergotree-ir/src/serialization/types.rs:341-549`. -/
def putType (t : SType) : Outcome Bytes :=
  match t.ser with
  | some b => .ok b
  | none => .err

/-- The pattern `Expr::Const(Constant { tpe: SType::SBoolean, v })`, `serialization/bin_op.rs:21-28`. -/
def boolConst? : Expr G B → Option (Literal G B)
  | const c =>
    match c.tpe with
    | .bool => some c.v
    | _ => none
  | _ => none

/-- `ConstantStore` of the writer, `serialization/sigma_byte_writer.rs:7-11`. -/
abbrev WStore (G B : Type) := Option (List (Constant G B))

/-- `ConstantStore::put`, `serialization/constant_store.rs:27-34` (with its `assert!`), followed by writing the placeholder,
`serialization/expr.rs:221-225`, `serialization/constant_placeholder.rs:9-12`. -/
def putConst (cs : List (Constant G B)) (c : Constant G B) : Outcome (Bytes × WStore G B) :=
  if cs.length + 1 ≤ 2 ^ 32 - 1 then
    .ok (Kind.placeholder.code :: putU32 (BitVec.ofNat 32 cs.length), some (cs ++ [c]))
  else .panic

/-- `Vec<FuncArg>::sigma_serialize`, `mir/func_value.rs:30-33`, `serialization/serializable.rs:161-164`. -/
def putArgs : List (BitVec 32 × SType) → Outcome Bytes
  | [] => .ok []
  | a :: l => do
    let t ← putType a.2
    let r ← putArgs l
    pure (putU32 a.1 ++ t ++ r)

mutual
/-- `Expr::sigma_serialize`, `serialization/expr.rs:217-300`, with the `sigma_serialize` of each node (files as in `tpe`;
`serialization/bin_op.rs:15-40`, `serialization/method_call.rs:14-20`, `serialization/property_call.rs:14-19`,
`mir/collection.rs:80-96`, `mir/create_avl_tree.rs:74-79`, `mir/sigma_and.rs:59-61`, `mir/sigma_or.rs:59-61`).  Lengths are cut
to the width of the length field (`as u32`, `as u16`, `as u8`). -/
def ser [DecidableEq G] (E : Sers G B T) : Expr G B → WStore G B → Outcome (Bytes × WStore G B)
  | const c, w =>
    match w with
    | some cs => putConst cs c
    | none => do
      let b ← c.ser E.pc E.bc
      pure (b, none)
  | placeholder id _, w => .ok (Kind.placeholder.code :: putU32 id, w)
  | valUse id _, w => .ok (Kind.valUse.code :: putU32 id, w)
  | bools l, w => .ok (Kind.bools.code :: (putU16 (BitVec.ofNat 16 l.length) ++ putBits l), w)
  | op o args, w => do
    let a ← serAll E args w
    pure (o.code :: a.1, a.2)
  | bin k l r, w =>
    match boolConst? l, boolConst? r with
    | some x, some y =>
      match x.boolOf, y.boolOf with
      | some bx, some bz => .ok (k.code :: Kind.bools.code :: putBits [bx, bz], w)
      | _, _ => .err
    | _, _ => do
      let a ← ser E l w
      let b ← ser E r a.2
      pure (k.code :: (a.1 ++ b.1), b.2)
  | cast up e t, w => do
    let a ← ser E e w
    let t ← putType t
    pure ((Kind.cast up).code :: (a.1 ++ t), a.2)
  | extractReg e r t, w => do
    let a ← ser E e w
    let t ← putType t
    pure (Kind.extractReg.code :: (a.1 ++ putI8 r ++ t), a.2)
  | selectField e i, w => do
    let a ← ser E e w
    pure (Kind.selectField.code :: (a.1 ++ putU8 i), a.2)
  | getVar i t, w => do
    let t ← putType t
    pure (Kind.getVar.code :: (putU8 i ++ t), w)
  | deserCtx t i, w => do
    let t ← putType t
    pure (Kind.deserCtx.code :: (t ++ putU8 i), w)
  | deserReg r t d, w => do
    let t ← putType t
    let a ← serOpt E d w
    pure (Kind.deserReg.code :: (putU8 r ++ t ++ a.1), a.2)
  | byIndex e i d, w => do
    let a ← ser E e w
    let b ← ser E i a.2
    let c ← serOpt E d b.2
    pure (Kind.byIndex.code :: (a.1 ++ b.1 ++ c.1), c.2)
  | createAvl f g k v, w => do
    let a ← ser E f w
    let b ← ser E g a.2
    let c ← ser E k b.2
    let d ← serOpt E v c.2
    pure (Kind.createAvl.code :: (a.1 ++ b.1 ++ c.1 ++ d.1), d.2)
  | coll t items, w => do
    let t ← putType t
    let a ← serAll E items w
    pure (Kind.coll.code :: (putU16 (BitVec.ofNat 16 items.length) ++ t ++ a.1), a.2)
  | tuple items, w => do
    let a ← serAll E items w
    pure (Kind.tuple.code :: (putU8 (BitVec.ofNat 8 items.length) ++ a.1), a.2)
  | sigma isAnd items, w => do
    let a ← serAll E items w
    pure ((Kind.sigma isAnd).code :: (putU32 (BitVec.ofNat 32 items.length) ++ a.1), a.2)
  | func args body, w => do
    let t ← putArgs args
    let a ← ser E body w
    pure (Kind.func.code :: (putU32 (BitVec.ofNat 32 args.length) ++ t ++ a.1), a.2)
  | apply f args, w => do
    let a ← ser E f w
    let b ← serAll E args a.2
    pure (Kind.apply.code :: (a.1 ++ putU32 (BitVec.ofNat 32 args.length) ++ b.1), b.2)
  | block items r, w => do
    let a ← serAll E items w
    let b ← ser E r a.2
    pure (Kind.block.code :: (putU32 (BitVec.ofNat 32 items.length) ++ a.1 ++ b.1), b.2)
  | valDef id rhs, w => do
    let a ← ser E rhs w
    pure (Kind.valDef.code :: (putU32 id ++ a.1), a.2)
  | method ti mi _ obj args, w => do
    let a ← ser E obj w
    let b ← serAll E args a.2
    pure (Kind.method.code ::
      (putU8 ti ++ putU8 mi ++ a.1 ++ putU32 (BitVec.ofNat 32 args.length) ++ b.1), b.2)
  | property ti mi _ obj, w => do
    let a ← ser E obj w
    pure (Kind.property.code :: (putU8 ti ++ putU8 mi ++ a.1), a.2)
/-- The item loops, `serialization/serializable.rs:163`, `mir/collection.rs:93`, `mir/tuple.rs:47`. -/
def serAll [DecidableEq G] (E : Sers G B T) : List (Expr G B) → WStore G B → Outcome (Bytes × WStore G B)
  | [], w => .ok ([], w)
  | e :: l, w => do
    let a ← ser E e w
    let b ← serAll E l a.2
    pure (a.1 ++ b.1, b.2)
/-- `Option<Box<Expr>>::sigma_serialize`, `serialization/serializable.rs:201-209`. -/
def serOpt [DecidableEq G] (E : Sers G B T) : List (Expr G B) → WStore G B → Outcome (Bytes × WStore G B)
  | [], w => .ok (putU8 0, w)
  | e :: _, w => do
    let a ← ser E e w
    pure (putU8 1 ++ a.1, a.2)
end

/-- `ValDefTypeStore`, `serialization/val_def_type_store.rs:6-20`. -/
abbrev TStore := FMap (BitVec 32) SType

/-- The parts of a reader that do not change while an expression is read: the constants of the tree, whether placeholders are
substituted (`serialization/sigma_byte_reader.rs:9-40`), and the method tables (`types/stype_companion.rs`: type code and
method id to signature).  Simplification: `ErgoTree::sigma_parse` called for a box inside an inline constant replaces the
constants of this very reader (`ergo_tree.rs:374`); here the constants stay. -/
structure Reader (G B : Type) where
  consts : List (Constant G B)
  subst : Bool
  methods : Byte → Byte → Option FuncSig

/-- A reader of expressions in a state of the type store, `serialization/sigma_byte_reader.rs:9-40`. -/
abbrev EP (G B : Type) := TStore → Parser (Expr G B × TStore)

/-- `for _ in 0..n { items.push(Expr::sigma_parse(r)?) }`, `serialization/serializable.rs:166-173`. -/
def parseN (q : EP G B) : Nat → TStore → Parser (List (Expr G B) × TStore)
  | 0, st => pure ([], st)
  | n + 1, st => do
    let a ← q st
    let l ← parseN q n a.2
    pure (a.1 :: l.1, l.2)

/-- `Option<Box<Expr>>::sigma_parse`, `serialization/serializable.rs:211-218`. -/
def parseOpt (q : EP G B) (st : TStore) : Parser (List (Expr G B) × TStore) := do
  let t ← getU8
  if t ≠ 0 then do
    let a ← q st
    pure ([a.1], a.2)
  else pure ([], st)

/-- `FuncArg::sigma_parse`, `mir/func_value.rs:35-39`. -/
def parseArg (utf8 : Bytes → Bool) : Parser (BitVec 32 × SType) := do
  let i ← getU32
  let t ← SType.parse utf8
  pure (i, t)

/-- `args.iter().for_each(|a| r.val_def_type_store().insert(a.idx, a.tpe.clone()))`, `mir/func_value.rs:101-102`. -/
def insertArgs (st : TStore) : List (BitVec 32 × SType) → TStore
  | [] => st
  | a :: l => insertArgs (st.insert a.1 a.2) l

/-- `From<bool> for Constant`, `mir/constant.rs` (used by `serialization/bin_op.rs:53-54`). -/
def boolExpr (b : Bool) : Expr G B := const { tpe := .bool, v := .bool b }

/-- `SMethod::from_ids(..)?.specialize_for(..)?`, `types/smethod.rs:48-58, 85-94`, followed by the test of `MethodCall::new`,
`mir/method_call.rs:31-57` (`PropertyCall::new`, `mir/property_call.rs:20-44`, is the case of no arguments). -/
def specialize (M : Byte → Byte → Option FuncSig) (ti mi : Byte) (actual : List SType) : Option FuncSig := do
  let raw ← M ti mi
  let s ← SType.unifyMany raw.dom actual
  let sig := raw.withSubst s
  if sig.dom.length = actual.length && SType.beqList sig.dom actual then some sig else none

/-- All of the types are `SSigmaProp`, `mir/sigma_and.rs:28-36`, `mir/sigma_or.rs:28-36`. -/
def allSigma (ts : List SType) : Bool := ts.all fun t => SOp.evalsTo t .sigmaProp

/-- `SelectField::new`, `mir/select_field.rs:73-95`, after `TupleFieldIndex::try_from`, `:24-34`. -/
def selectOk (t : SType) (i : Byte) : Bool :=
  decide (1 ≤ i.toNat) && match t with
    | .tuple ts => (ts[i.toNat - 1]?).isSome
    | _ => false

/-- `ByIndex::new`, `mir/coll_by_index.rs:28-55`. -/
def byIndexOk (t i : SType) (d : List SType) : Bool :=
  match t.postEval with
  | .coll e => SOp.evalsTo i .int && d.all fun x => SOp.evalsTo x e
  | _ => false

/-- `CreateAvlTree::new`, `mir/create_avl_tree.rs:27-46`. -/
def createAvlOk (f d k : SType) (v : List SType) : Bool :=
  SOp.evalsTo f .byte && SOp.evalsTo d SType.collByte && SOp.evalsTo k .int && v.all fun x => SOp.evalsTo x .int

/-- `Apply::new`, `mir/apply.rs:27-48`. -/
def applyOk (f : SType) (args : List SType) : Bool :=
  match f with
  | .func d _ _ => SType.beqList d args
  | _ => false

/-- The arms of `Expr::parse_with_tag` for op codes, `serialization/expr.rs:94-196`, with the `sigma_parse` of each node (files as
in `tpe`; `serialization/bin_op.rs:42-66`, `serialization/constant_placeholder.rs:14-24`, `mir/val_use.rs:30-38`,
`serialization/method_call.rs:22-30`, `serialization/property_call.rs:21-28`).  `p` is `Expr::parse_with_tag` and `q` is
`Expr::sigma_parse`. -/
def parseKind (E : Sers G B T) (R : Reader G B) (p : TStore × Byte → Parser (Expr G B × TStore)) (q : EP G B)
    (st : TStore) : Kind → Parser (Expr G B × TStore)
  | .simple o => do
    let a ← parseN q o.arity st
    if o.check (tpes a.1) then pure (op o a.1, a.2) else Parser.fail
  | .bin k => do
    let tag ← getU8
    if tag = Kind.bools.code then do
      let bs ← getBits 2
      pure (bin k (boolExpr (bs[0]?.getD false)) (boolExpr (bs[1]?.getD false)), st)
    else do
      let l ← p (st, tag)
      let r ← q l.2
      pure (bin k l.1 r.1, r.2)
  | .placeholder => do
    let id ← getU32
    match R.consts[id.toNat]? with
    | some c => if R.subst then pure (const c, st) else pure (placeholder id c.tpe, st)
    | none => Parser.fail
  | .valUse => do
    let id ← getU32
    match FMap.get st id with
    | some t => pure (valUse id t, st)
    | none => Parser.fail
  | .bools => do
    let n ← getU16
    let l ← getBits n.toNat
    pure (bools l, st)
  | .cast up => do
    let e ← q st
    let t ← SType.parse E.utf8
    pure (cast up e.1 t, e.2)
  | .extractReg => do
    let e ← q st
    let r ← getI8
    let t ← SType.parse E.utf8
    if SOp.evalsTo e.1.tpe .box then pure (extractReg e.1 r t, e.2) else Parser.fail
  | .selectField => do
    let e ← q st
    let x ← getU8
    if selectOk e.1.tpe x then pure (selectField e.1 x, e.2) else Parser.fail
  | .getVar => do
    let x ← getU8
    let t ← SType.parse E.utf8
    pure (getVar x t, st)
  | .deserCtx => do
    let t ← SType.parse E.utf8
    let x ← getU8
    pure (deserCtx t x, st)
  | .deserReg => do
    let x ← getU8
    let t ← SType.parse E.utf8
    let d ← parseOpt q st
    pure (deserReg x t d.1, d.2)
  | .byIndex => do
    let e ← q st
    let x ← q e.2
    let d ← parseOpt q x.2
    if byIndexOk e.1.tpe x.1.tpe (tpes d.1) then pure (byIndex e.1 x.1 d.1, d.2) else Parser.fail
  | .createAvl => do
    let f ← q st
    let g ← q f.2
    let k ← q g.2
    let v ← parseOpt q k.2
    if createAvlOk f.1.tpe g.1.tpe k.1.tpe (tpes v.1) then pure (createAvl f.1 g.1 k.1 v.1, v.2) else Parser.fail
  | .coll => do
    let n ← getU16
    let t ← SType.parse E.utf8
    let a ← parseN q n.toNat st
    pure (coll t a.1, a.2)
  | .tuple => do
    let n ← getU8
    let a ← parseN q n.toNat st
    if 2 ≤ a.1.length ∧ a.1.length ≤ 255 then pure (tuple a.1, a.2) else Parser.fail
  | .sigma isAnd => do
    let n ← getU32
    let a ← parseN q n.toNat st
    if allSigma (tpes a.1) = true ∧ 2 ≤ a.1.length ∧ a.1.length ≤ 255 then pure (sigma isAnd a.1, a.2) else Parser.fail
  | .func => do
    let n ← getU32
    let args ← replicateP n.toNat (parseArg E.utf8)
    let b ← q (insertArgs st args)
    pure (func args b.1, b.2)
  | .apply => do
    let f ← q st
    let n ← getU32
    let a ← parseN q n.toNat f.2
    if applyOk f.1.tpe (tpes a.1) then pure (apply f.1 a.1, a.2) else Parser.fail
  | .block => do
    let n ← getU32
    let a ← parseN q n.toNat st
    let r ← q a.2
    pure (block a.1 r.1, r.2)
  | .valDef => do
    let id ← getU32
    let r ← q st
    pure (valDef id r.1, FMap.insert r.2 id r.1.tpe)
  | .method => do
    let ti ← getU8
    let mi ← getU8
    let obj ← q st
    let n ← getU32
    let a ← parseN q n.toNat obj.2
    match specialize R.methods ti mi (obj.1.tpe :: tpes a.1) with
    | some sig => pure (method ti mi sig obj.1 a.1, a.2)
    | none => Parser.fail
  | .property => do
    let ti ← getU8
    let mi ← getU8
    let obj ← q st
    match specialize R.methods ti mi [obj.1.tpe] with
    | some sig => pure (property ti mi sig obj.1, obj.2)
    | none => Parser.fail

/-- `Expr::parse_with_tag`, `serialization/expr.rs:87-205`: constants start with a type code, all other nodes with an op
code. -/
def parseTag (E : Sers G B T) (R : Reader G B) (p : TStore × Byte → Parser (Expr G B × TStore)) (q : EP G B)
    (i : TStore × Byte) : Parser (Expr G B × TStore) :=
  if i.2.toNat ≤ 112 then do
    let c ← Constant.parseCode E.utf8 E.pc E.bc i.2
    pure (const c, i.1)
  else
    match Kind.ofCode i.2 with
    | none => Parser.fail
    | some k => parseKind E R p q i.1 k

/-- `Expr::sigma_parse` in terms of `Expr::parse_with_tag`, `serialization/expr.rs:302-305`. -/
def withTag (p : TStore × Byte → Parser (Expr G B × TStore)) : EP G B := fun st => do
  let tag ← getU8
  p (st, tag)

/-- `Expr::parse_with_tag` unrolled `n` times (see `Verif.fixFuel`), `serialization/expr.rs:302-305`. -/
def parseFuel (E : Sers G B T) (R : Reader G B) : Nat → TStore × Byte → Parser (Expr G B × TStore)
  | 0, _ => Parser.fail
  | n + 1, i => parseTag E R (parseFuel E R n) (withTag (parseFuel E R n)) i

/-- `Expr::parse_with_tag`, `serialization/expr.rs:87-205`: the budget exceeds the number of unread bytes, and every nested
call reads at least one byte (`Proofs/Expr.lean`, `parseWith_eq`). -/
def parseWith (E : Sers G B T) (R : Reader G B) (i : TStore × Byte) : Parser (Expr G B × TStore) := fun s =>
  parseFuel E R (s.length + 1) i s

/-- `Expr::sigma_parse`, `serialization/expr.rs:302-305`. -/
def parse (E : Sers G B T) (R : Reader G B) : EP G B := withTag (parseWith E R)

end Expr
end Verif
