import Verif.Model.Arith
import Verif.Model.Value
import Verif.Model.Register

/-!
# Operations of the script interpreter on values

Source: `ergotree-interpreter/src/eval/*.rs`: what the nodes and methods do once their operands are values.  Nodes and methods
that call a lambda are in `Model/Eval.lean`.
-/

namespace Verif

/-- `Operation` of the `ergo_avltree_rust` crate, as used by `eval/savltree.rs`. -/
inductive AvlOp where
  | lookup (key : Bytes)
  | insert (key value : Bytes)
  | update (key value : Bytes)
  | remove (key : Bytes)

/-- What scripts read of a box: `ErgoBox::{value, sigma_serialize_bytes, bytes_without_ref, script_bytes, creation_info, box_id,
tokens_raw}` and `additional_registers.get_constant`, `chain/ergo_box.rs:150-192`.  The box type is a parameter. -/
structure BoxOps (G B : Type) where
  value : B → BitVec 64
  bytes : B → Outcome Bytes
  bytesNoRef : B → Outcome Bytes
  script : B → Outcome Bytes
  creation : B → BitVec 32 × Bytes
  id : B → Bytes
  tokens : B → List (Bytes × BitVec 64)
  reg : B → NmId → Outcome (Option (Constant G B))

/-- Everything the interpreter takes from outside: the codecs and the table of methods, the build mode, boxes, the SHA-256
hash, the group (`ergo-chain-types/src/ec_point.rs:77-118`: `mul` is `Mul`, `inv` is `Neg`, `exp` is `exponentiate` by a scalar
below `order`), and the AVL tree verifier of the `ergo_avltree_rust` crate: `avl tree proof ops` gives the results of the
operations and the digest afterwards; `none` when the verifier cannot be built or an operation fails. -/
structure World (G B T : Type) where
  E : Sers G B T
  M : Byte → Byte → Option FuncSig
  mode : Mode
  box : BoxOps G B
  sha : HashFn
  gen : G
  mul : G → G → G
  inv : G → G
  exp : G → Nat → G
  order : Nat
  avl : AvlTreeData → Bytes → List AvlOp → Option (List (Option Bytes) × Option Bytes)

/-- `Context`, `eval/context.rs:11-31`, and the cost limit of `CostAccumulator`, `eval/cost_accum.rs:6-10`.  No data inputs is the
empty list (`scontext.rs:18-22`). -/
structure EvalCtx (G B : Type) where
  height : BitVec 32
  selfBox : B
  outputs : List B
  dataInputs : List B
  inputs : List B
  preHeader : PreHeader G
  headers : List (Header G)
  extension : Extension G B
  limit : Option Nat

/-- `RegisterId`, `chain/ergo_box/register/id.rs:7-13`. -/
inductive RegId where
  | r0 | r1 | r2 | r3
  | nm (r : NmId)

/-- `TryFrom<i8> for RegisterId`, `register/id.rs:31-47` (and `TryFrom<u8>`, `:49-55`, which casts to `i8`). -/
def RegId.ofI8 (v : BitVec 8) : Res RegId :=
  if v.toInt < 0 then .err .registerIdOutOfBounds
  else match v.toNat with
    | 0 => .ok .r0
    | 1 => .ok .r1
    | 2 => .ok .r2
    | 3 => .ok .r3
    | _ => do
      let r ← Res.ofOutcome .registerIdOutOfBounds (NmId.ofI8 v)
      pure (.nm r)

/-- `i32 as usize` on a 64 bit machine, `ergotree-interpreter/src/eval/coll_by_index.rs:25, 30`,
`ergotree-interpreter/src/eval/coll_slice.rs:28`. -/
def usizeOf (i : BitVec 32) : Nat := (i.signExtend 64).toNat

/-- The type of `tokens`, `ergotree-ir/src/types/sbox.rs:65`. -/
def SType.tokens : SType := .coll (.tuple [.collByte, .long])

section
variable {G B T : Type}

/-- `ErgoBox::get_register`, `chain/ergo_box.rs:150-162`; R1 unwraps the serialization of the script (`:156`). -/
def getRegister (o : BoxOps G B) (b : B) : RegId → Outcome (Option (Constant G B))
  | .r0 => .ok (some { tpe := .long, v := .long (o.value b) })
  | .r1 =>
    match o.script b with
    | .ok s => .ok (some { tpe := .collByte, v := .collByte s })
    | _ => .panic
  | .r2 =>
    let items : List (Literal G B) := (o.tokens b).map fun t => .tup [.collByte t.1, .long t.2]
    .ok (some { tpe := SType.tokens, v := .coll (.tuple [.collByte, .long]) items })
  | .r3 => .ok (some { tpe := .tuple [.int, .collByte], v := .tup [.int (o.creation b).1, .collByte (o.creation b).2] })
  | .nm r => o.reg b r

namespace Value

/-- `ExtractRegisterAs`, `extract_reg_as.rs:14-33`, and `Box.getReg`, `sbox.rs:24-40`, given the box and the register index. -/
def regOption (o : BoxOps G B) (b : B) (reg : Byte) : Res (Value G B) := do
  let id ← RegId.ofI8 reg
  let c ← Res.ofOutcome .notFound (getRegister o b id)
  pure (ofOption (c.map fun c => ofLiteral c.v))

/-- `Slice`, `coll_slice.rs:23-33`, given the items: `get(from.max(0) as usize .. until.min(len as i32) as usize)`, with an empty
result when the range is not inside the items. -/
def sliceItems (l : List (Value G B)) (start stop : BitVec 32) : List (Value G B) :=
  let len : BitVec 32 := BitVec.ofNat 32 l.length
  let a := usizeOf (if start.slt 0 then 0 else start)
  let b := usizeOf (if stop.slt len then stop else len)
  if a ≤ b ∧ b ≤ l.length then (l.take b).drop a else []

/-- `Atleast`, `atleast.rs:29-51`, given the bound and the items. -/
def atleast (bound : BitVec 32) (items : List (SigmaBoolean G)) : Res (Value G B) :=
  if bound.toInt < 0 ∨ 255 < bound.toInt then .err .misc
  else if (BitVec.ofNat 32 items.length).toInt < bound.toInt then .err .misc
  else if 2 ≤ items.length ∧ items.length ≤ 255 then do
    let p ← Res.ofOutcome .misc (SigmaBoolean.reduce (bound.setWidth 8) items)
    pure (sigmaProp p)
  else .err .boundedVec

/-- The replacement loop of `SubstConstants`, `subst_const.rs:56-68`. -/
def substLoop (num : Nat) : List (BitVec 32 × Constant G B) → ETree G B → Res (ETree G B)
  | [], t => .ok t
  | (i, c) :: l, t =>
    if usizeOf i < num then do
      let t' ← Res.ofOption .misc (t.withConstant (usizeOf i) c)
      substLoop num l t'
    else .err .misc

/-- `SubstConstants`, `subst_const.rs:23-79`, given the three values. -/
def substConstants [DecidableEq G] (W : World G B T) (script positions newValues : Value G B) : Res (Value G B) := do
  let pos ← positions.asVecOf asInt
  match newValues with
  | coll _ items => do
    let cs ← Res.ofOption .misc (toConstants items)
    if cs.length ≠ pos.length then .err .misc
    else match script with
      | collByte b => do
        let t ← Res.ofOption .sigmaParsing (ETree.parseBytes W.E W.M b)
        let num ← Res.ofOption .misc t.constantsLen
        let t' ← substLoop num (pos.zip cs) t
        let out ← Res.ofOutcome .sigmaSerialization (t'.ser W.E)
        pure (collByte out)
      | _ => .err .misc
  | _ => .err .misc

/-- `SigmaProp::prop_bytes`, `sigma_protocol/sigma_boolean.rs:302-309`, in `SigmaPropBytes`, `sigma_prop_bytes.rs:9-20`. -/
def propBytes [DecidableEq G] (W : World G B T) (p : SigmaBoolean G) : Res (Value G B) := do
  let t ← Res.ofOutcome .ergoTree (ETree.ofExpr W.E W.M (.const { tpe := .sigmaProp, v := .sigmaProp p }))
  let b ← Res.ofOutcome .ergoTree (t.ser W.E)
  pure (collByte b)

/-- One lookup in an AVL tree: `tree_lookup.rs:25-55`, `savltree.rs:106-134, 336-362`. -/
def avlLookup (W : World G B T) (t : AvlTreeData) (key proof : Bytes) : Res (Option Bytes) :=
  match W.avl t proof [.lookup key] with
  | Option.some (r :: _, _) => .ok r
  | _ => .err .avlTree

/-- The end of `insert`, `remove` and `update`, `savltree.rs:217-255, 280-315, 387-425`: run the operations and take the new
digest, of which the first 33 bytes are read. -/
def avlModify (W : World G B T) (t : AvlTreeData) (proof : Bytes) (ops : List AvlOp) : Res (Value G B) :=
  match W.avl t proof ops with
  | Option.some (_, Option.some d) =>
    if 33 ≤ d.length then .ok (some (avlTree { t with digest := d.take 33 })) else .err .scorexParsing
  | _ => .err .avlTree

/-- `CreateAvlTree`, `create_avl_tree.rs:25-33`, given the parts. -/
def mkAvl (flags : BitVec 8) (digest : Bytes) (keyLength : BitVec 32) (valueLength : Option (BitVec 32)) : Res (Value G B) :=
  if digest.length = 33 then
    .ok (avlTree { digest := digest, flags := avlFlagsParse flags, keyLength := keyLength, valueLength := valueLength })
  else .err .avlTree

/-- A pair of collections of bytes and longs, `chain/ergo_box.rs:165-172`, `sbox.rs:43-46`. -/
def tokensValue (l : List (Bytes × BitVec 64)) : Value G B :=
  coll (.tuple [.collByte, .long]) (l.map fun t => tup [collByte t.1, long t.2])

/-- The nodes that evaluate all operands, from left to right, before they do anything else (files of `eval/` named after the
node): `and.rs:13-14`, `or.rs:13-14`, `xor_of.rs:13-14`, `logical_not.rs:13-14`, `negation.rs:12-32`, `bit_inversion.rs:11-22`,
`option_get.rs:12-20`, `option_is_defined.rs:12-18`, `option_get_or_else.rs:11-19` (the default is always evaluated),
`extract_amount.rs:12-18`, `extract_bytes.rs:13-19`, `extract_bytes_with_no_ref.rs:11-18`, `extract_script_bytes.rs:12-18`,
`extract_creation_info.rs:12-18`, `extract_id.rs:12-22`, `coll_size.rs:12-19`, `bool_to_sigma.rs:15-16`,
`create_provedlog.rs:13-22`, `sigma_prop_bytes.rs:12-18`, `decode_point.rs:15-22`, `calc_blake2b256.rs:16-26`,
`calc_sha256.rs:15-25`, `byte_array_to_long.rs:12-28`, `byte_array_to_bigint.rs:15-26`, `long_to_byte_array.rs:10-21`,
`coll_append.rs:37-56`, `xor.rs:18-33`, `atleast.rs:18-51`, `multiply_group.rs:11-20`, `exponentiate.rs:13-29`,
`coll_slice.rs:13-34`, `subst_const.rs:19-79`, `global_vars.rs:10-23`, `expr.rs:30-31`.  The last case (operands of the wrong
number) cannot be built in Rust. -/
def strictOp [DecidableEq G] (W : World G B T) (C : EvalCtx G B) : SOp → List (Value G B) → Res (Value G B)
  | .height, [] => .ok (int C.height)
  | .inputs, [] => .ok (coll .box (C.inputs.map box))
  | .outputs, [] => .ok (coll .box (C.outputs.map box))
  | .selfBox, [] => .ok (box C.selfBox)
  | .minerPubKey, [] => .ok (collByte (putPoint W.E.pc C.preHeader.minerPk))
  | .groupGenerator, [] => .ok (groupElement W.gen)
  | .global, [] => .ok global
  | .context, [] => .ok context
  | .and, [v] => do
    let l ← v.asVecOf asBool
    pure (bool (l.all id))
  | .or, [v] => do
    let l ← v.asVecOf asBool
    pure (bool (l.any id))
  | .xorOf, [v] => do
    let l ← v.asVecOf asBool
    pure (bool (l.foldl xor false))
  | .logicalNot, [v] => do
    let b ← v.asBool
    pure (bool (!b))
  | .negation, [v] => v.negate
  | .bitInversion, [v] => v.invert
  | .optionGet, [v] =>
    match v with
    | some x => .ok x
    | none => .err .notFound
    | _ => .err .unexpectedExpr
  | .optionIsDefined, [v] =>
    match v with
    | some _ => .ok (bool true)
    | none => .ok (bool false)
    | _ => .err .unexpectedExpr
  | .optionGetOrElse, [v, d] =>
    match v with
    | some x => .ok x
    | none => .ok d
    | _ => .err .unexpectedExpr
  | .extractAmount, [v] =>
    match v with
    | box b => .ok (long (W.box.value b))
    | _ => .err .unexpectedValue
  | .extractBytes, [v] =>
    match v with
    | box b => do
      let x ← Res.ofOutcome .sigmaSerialization (W.box.bytes b)
      pure (collByte x)
    | _ => .err .unexpectedValue
  | .extractBytesWithNoRef, [v] =>
    match v with
    | box b => do
      let x ← Res.ofOutcome .sigmaSerialization (W.box.bytesNoRef b)
      pure (collByte x)
    | _ => .err .unexpectedValue
  | .extractScriptBytes, [v] =>
    match v with
    | box b => do
      let x ← Res.ofOutcome .sigmaSerialization (W.box.script b)
      pure (collByte x)
    | _ => .err .unexpectedValue
  | .extractCreationInfo, [v] =>
    match v with
    | box b => .ok (tup [int (W.box.creation b).1, collByte (W.box.creation b).2])
    | _ => .err .unexpectedValue
  | .extractId, [v] =>
    match v with
    | box b => .ok (collByte (W.box.id b))
    | _ => .err .unexpectedValue
  | .sizeOf, [v] => do
    let c ← v.asColl
    pure (int (BitVec.ofNat 32 c.2.length))
  | .boolToSigmaProp, [v] => do
    let b ← v.asBool
    pure (sigmaProp (.trivial b))
  | .createProveDlog, [v] =>
    match v with
    | groupElement g => .ok (sigmaProp (.dlog g))
    | _ => .err .unexpectedValue
  | .sigmaPropBytes, [v] =>
    match v with
    | sigmaProp p => propBytes W p
    | _ => .err .unexpectedValue
  | .decodePoint, [v] => do
    let b ← v.asBytes
    match getPoint W.E.pc b with
    | Option.some x => .ok (groupElement x.1)
    | Option.none => .err .misc
  | .calcBlake2b256, [v] =>
    match v with
    | collByte b => .ok (collByte (W.E.H b))
    | _ => .err .unexpectedValue
  | .calcSha256, [v] =>
    match v with
    | collByte b => .ok (collByte (W.sha b))
    | _ => .err .unexpectedValue
  | .byteArrayToLong, [v] => do
    let b ← v.asBytes
    let x ← bytesToLong b
    pure (long x)
  | .byteArrayToBigInt, [v] => do
    let b ← v.asBytes
    let x ← bytesToBigInt b
    pure (bigInt x)
  | .longToByteArray, [v] => do
    let x ← v.asLong
    pure (collByte (longToBytes x))
  | .append, [a, b] => do
    let x ← a.asColl
    let y ← b.asColl
    if x.1.beq y.1 then fromVec x.1 (x.2 ++ y.2) else .err .unexpectedValue
  | .xor, [a, b] =>
    match a, b with
    | collByte x, collByte y => .ok (collByte (xorBytes x y))
    | _, _ => .err .unexpectedValue
  | .atleast, [bound, input] => do
    let c ← input.asColl
    let k ← bound.asInt
    let l ← Res.mapAll asSigma c.2
    atleast k l
  | .multiplyGroup, [a, b] =>
    match a, b with
    | groupElement g, groupElement h => .ok (groupElement (W.mul g h))
    | _, _ => .err .unexpectedValue
  | .exponentiate, [a, b] =>
    match a, b with
    | groupElement g, bigInt k => if 0 ≤ k ∧ k < W.order then .ok (groupElement (W.exp g k.toNat)) else .err .unexpectedValue
    | _, _ => .err .unexpectedValue
  | .slice, [v, a, b] => do
    let c ← v.asColl
    let start ← a.asInt
    let stop ← b.asInt
    fromVec c.1 (sliceItems c.2 start stop)
  | .substConstants, [s, p, n] => substConstants W s p n
  | _, _ => .err .misc

/-- `args.get(i).cloned().ok_or_else(..)?`, `ergotree-interpreter/src/eval/scoll.rs:267-272`. -/
def argOf (e : EvalErr) (i : Nat) (args : List (Value G B)) : Res (Value G B) := Res.ofOption e args[i]?

/-- `Coll.indexOf`, `scoll.rs:14-37`.  The second argument, meant as the place to start from, is the result when there is no such
element. -/
def collIndexOf [DecidableEq (Value G B)] (obj : Value G B) (args : List (Value G B)) : Res (Value G B) := do
  let c ← obj.asColl
  let target ← argOf .notFound 0 args
  let fb ← argOf .notFound 1 args
  let fallback ← fb.asInt
  match c.2.findIdx? (fun x => decide (x = target)) with
  | Option.some i => .ok (int (BitVec.ofNat 32 i))
  | Option.none => .ok (int fallback)

/-- `Coll.zip`, `scoll.rs:125-154`. -/
def collZip (obj : Value G B) (args : List (Value G B)) : Res (Value G B) := do
  let c ← obj.asColl
  let a ← argOf .notFound 0 args
  let d ← a.asColl
  fromVec (.tuple [c.1, d.1]) ((c.2.zip d.2).map fun p => tup [p.1, p.2])

/-- `Coll.indices`, `scoll.rs:156-181`; `i32::try_from(i)` fails for an index that is too large. -/
def collIndices (obj : Value G B) : Res (Value G B) := do
  let c ← obj.asColl
  if c.2.length ≤ 2 ^ 31 then fromVec .int ((List.range c.2.length).map fun i => int (BitVec.ofNat 32 i))
  else .err .unexpectedValue

/-- `Coll.patch`, `scoll.rs:183-222`; the sum of the two `usize` may overflow (`:218`). -/
def collPatch (mode : Mode) (obj : Value G B) (args : List (Value G B)) : Res (Value G B) := do
  let c ← obj.asColl
  let a0 ← argOf .notFound 0 args
  let a1 ← argOf .notFound 1 args
  let a2 ← argOf .notFound 2 args
  let start ← a0.asInt
  let replaced ← a2.asInt
  let p ← a1.asColl
  let skip ← Res.ofOutcome .misc (addU64 mode (usizeOf start) (usizeOf replaced))
  fromVec c.1 (c.2.take (usizeOf start) ++ p.2 ++ c.2.drop skip)

/-- `Coll.updated`, `scoll.rs:224-255`. -/
def collUpdated (obj : Value G B) (args : List (Value G B)) : Res (Value G B) := do
  let c ← obj.asColl
  let a0 ← argOf .notFound 0 args
  let v ← argOf .notFound 1 args
  let i ← a0.asInt
  if usizeOf i < c.2.length then fromVec c.1 (c.2.set (usizeOf i) v) else .err .unexpectedValue

/-- The loop of `Coll.updateMany`, `scoll.rs:307-329`. -/
def updateLoop : List (BitVec 32 × Value G B) → List (Value G B) → Res (List (Value G B))
  | [], l => .ok l
  | (i, v) :: rest, l => if usizeOf i < l.length then updateLoop rest (l.set (usizeOf i) v) else .err .unexpectedValue

/-- `Coll.updateMany`, `scoll.rs:257-331`. -/
def collUpdateMany (obj : Value G B) (args : List (Value G B)) : Res (Value G B) := do
  let c ← obj.asColl
  let a0 ← argOf .notFound 0 args
  let a1 ← argOf .notFound 1 args
  let u ← a1.asColl
  let idx ← a0.asVecOf asInt
  if idx.length ≠ u.2.length then .err .unexpectedValue
  else if c.1.beq u.1 then do
    let l ← updateLoop (idx.zip u.2) c.2
    fromVec c.1 l
  else .err .unexpectedValue

/-- Methods of `AvlTree`, `savltree.rs:23-426`, in the order of their ids (`types/savltree.rs`). -/
def avlMethod (W : World G B T) (methodId : Nat) (obj : Value G B) (args : List (Value G B)) : Res (Value G B) :=
  match methodId with
  | 1 => do
    let t ← obj.asAvl
    pure (collByte t.digest)
  | 2 => do
    let t ← obj.asAvl
    pure (byte t.flags)
  | 3 => do
    let t ← obj.asAvl
    pure (int t.keyLength)
  | 4 => do
    let t ← obj.asAvl
    pure (ofOption (t.valueLength.map int))
  | 5 => do
    let t ← obj.asAvl
    pure (bool (t.flags &&& 0x01 != 0))
  | 6 => do
    let t ← obj.asAvl
    pure (bool (t.flags &&& 0x02 != 0))
  | 7 => do
    let t ← obj.asAvl
    pure (bool (t.flags &&& 0x04 != 0))
  | 8 => do
    let t ← obj.asAvl
    let a ← argOf .avlTree 0 args
    let f ← a.asByte
    pure (avlTree { t with flags := avlFlagsParse f })
  | 9 => do
    let t ← obj.asAvl
    let k ← argOf .avlTree 0 args
    let key ← k.asBytes
    let p ← argOf .avlTree 1 args
    let proof ← p.asBytes
    let r ← avlLookup W t key proof
    pure (bool r.isSome)
  | 10 => do
    let t ← obj.asAvl
    let k ← argOf .avlTree 0 args
    let key ← k.asBytes
    let p ← argOf .avlTree 1 args
    let proof ← p.asBytes
    let r ← avlLookup W t key proof
    pure (ofOption (r.map collByte))
  | 11 => do
    let t ← obj.asAvl
    let k ← argOf .avlTree 0 args
    let keys ← k.asVecOf asBytes
    let p ← argOf .avlTree 1 args
    let proof ← p.asBytes
    let r ← Res.ofOption .avlTree (W.avl t proof (keys.map .lookup))
    pure (coll (.option .collByte) (r.1.map fun x => ofOption (x.map collByte)))
  | 12 => do
    let t ← obj.asAvl
    if t.flags &&& 0x01 != 0 then do
      let a ← argOf .avlTree 0 args
      let entries ← a.asVecOf asBytesPair
      let p ← argOf .avlTree 1 args
      let proof ← p.asBytes
      avlModify W t proof (entries.map fun e => .insert e.1 e.2)
    else .err .avlTree
  | 13 => do
    let t ← obj.asAvl
    if t.flags &&& 0x02 != 0 then do
      let a ← argOf .avlTree 0 args
      let entries ← a.asVecOf asBytesPair
      let p ← argOf .avlTree 1 args
      let proof ← p.asBytes
      avlModify W t proof (entries.map fun e => .update e.1 e.2)
    else .err .avlTree
  | 14 => do
    let t ← obj.asAvl
    if t.flags &&& 0x04 != 0 then do
      let a ← argOf .avlTree 0 args
      let keys ← a.asVecOf asBytes
      let p ← argOf .avlTree 1 args
      let proof ← p.asBytes
      avlModify W t proof (keys.map .remove)
    else .err .avlTree
  | 15 => do
    let t ← obj.asAvl
    let a ← argOf .avlTree 0 args
    let d ← a.asBytes
    if d.length = 33 then .ok (avlTree { t with digest := d }) else .err .avlTree
  | _ => .err .notFound

/-- Properties of `Header`, `sheader.rs:10-92`, in the order of their ids (`types/sheader.rs`). -/
def headerMethod (W : World G B T) (methodId : Nat) (obj : Value G B) : Res (Value G B) :=
  if methodId = 0 ∨ 15 < methodId then .err .notFound
  else do
    let h ← obj.asHeader
    match methodId with
    | 1 => pure (collByte h.id)
    | 2 => pure (byte h.version)
    | 3 => pure (collByte h.parentId)
    | 4 => pure (collByte h.adProofsRoot)
    | 5 => pure (collByte h.stateRoot)
    | 6 => pure (collByte h.transactionRoot)
    | 7 => pure (long h.timestamp)
    | 8 => pure (long h.nBits)
    | 9 => pure (int h.height)
    | 10 => pure (collByte h.extensionRoot)
    | 11 => pure (groupElement h.solution.minerPk)
    | 12 => pure (groupElement (h.solution.onetimePk.getD W.E.pc.one))
    | 13 => pure (collByte h.solution.nonce)
    | 14 => do
      let d ← Res.ofOption .misc (bigInt256 (h.solution.distance.getD 0))
      pure (bigInt d)
    | _ => pure (collByte h.votes)

/-- Properties of `PreHeader`, `spreheader.rs:6-39`, in the order of their ids (`types/spreheader.rs`). -/
def preHeaderMethod (methodId : Nat) (obj : Value G B) : Res (Value G B) :=
  if methodId = 0 ∨ 7 < methodId then .err .notFound
  else do
    let h ← obj.asPreHeader
    match methodId with
    | 1 => pure (byte h.version)
    | 2 => pure (collByte h.parentId)
    | 3 => pure (long h.timestamp)
    | 4 => pure (long h.nBits)
    | 5 => pure (int h.height)
    | 6 => pure (groupElement h.minerPk)
    | _ => pure (collByte h.votes)

/-- Properties of `Context` with an evaluation function, `scontext.rs:10-88`, `eval.rs:245-259`.  The context always has ten headers in
Rust (`context.rs:28`). -/
def contextMethod [DecidableEq B] (C : EvalCtx G B) (methodId : Nat) (obj : Value G B) : Res (Value G B) :=
  match obj with
  | context =>
    match methodId with
    | 1 => .ok (coll .box (C.dataInputs.map box))
    | 2 => .ok (coll .header (C.headers.map header))
    | 3 => .ok (preHeader C.preHeader)
    | 8 =>
      match C.inputs.findIdx? (fun b => decide (b = C.selfBox)) with
      | Option.some i => .ok (int (BitVec.ofNat 32 i))
      | Option.none => .err .notFound
    | 9 =>
      match C.headers with
      | h :: _ => .ok (avlTree { digest := h.stateRoot, flags := avlFlagsNew true true true, keyLength := 32,
                                 valueLength := Option.none })
      | [] => .panic
    | _ => .err .notFound
  | _ => if methodId ∈ [1, 2, 3, 8, 9] then .err .unexpectedValue else .err .notFound

/-- `smethod_eval_fn` (`eval.rs:219-363`) and the functions it gives, except `Coll.flatMap`, `Option.map`, `Option.filter`:
`sbox.rs:12-46`, `scoll.rs`, `sgroup_elem.rs:9-30`, `sglobal.rs:14-53` (`xor` takes its first argument for the right one). -/
def pureMethod [DecidableEq G] [DecidableEq B] [DecidableEq (Value G B)] (W : World G B T) (C : EvalCtx G B)
    (typeId methodId : Nat) (obj : Value G B) (args : List (Value G B)) : Res (Value G B) :=
  match typeId with
  | 100 => avlMethod W methodId obj args
  | 101 => contextMethod C methodId obj
  | 99 =>
    match methodId with
    | 1 => do
      let b ← obj.asBox
      pure (long (W.box.value b))
    | 7 => do
      let a ← argOf .notFound 0 args
      let i ← a.asByte
      let _ ← RegId.ofI8 i
      let b ← obj.asBox
      regOption W.box b i
    | 8 => do
      let b ← obj.asBox
      pure (tokensValue (W.box.tokens b))
    | _ => .err .notFound
  | 12 =>
    match methodId with
    | 14 => collIndices obj
    | 19 => collPatch W.mode obj args
    | 20 => collUpdated obj args
    | 21 => collUpdateMany obj args
    | 26 => collIndexOf obj args
    | 29 => collZip obj args
    | _ => .err .notFound
  | 7 =>
    match methodId with
    | 2 =>
      match obj with
      | groupElement g => .ok (collByte (putPoint W.E.pc g))
      | _ => .err .unexpectedValue
    | 5 =>
      match obj with
      | groupElement g => .ok (groupElement (W.inv g))
      | _ => .err .unexpectedValue
    | _ => .err .notFound
  | 104 => headerMethod W methodId obj
  | 105 => preHeaderMethod methodId obj
  | 106 =>
    match methodId with
    | 1 =>
      match obj with
      | global => .ok (groupElement W.gen)
      | _ => .err .unexpectedValue
    | 2 =>
      match obj with
      | global => do
        let right ← argOf .notFound 0 args
        let left ← argOf .notFound 1 args
        match left, right with
        | collByte x, collByte y => .ok (collByte (xorBytes x y))
        | _, _ => .err .unexpectedValue
      | _ => .err .unexpectedValue
    | _ => .err .notFound
  | _ => .err .notFound

end Value
end
end Verif
