import Verif.Model.ErgoTree
import Verif.Model.Header
import Verif.Model.Extension

/-!
# Values of the script interpreter

Source: `ergotree-ir/src/mir/value.rs`, `ergotree-ir/src/mir/constant.rs`, `ergotree-interpreter/src/eval/{error,env}.rs`.
-/

namespace Verif

/-- `EvalError`, `ergotree-interpreter/src/eval/error.rs:22-77`, without the messages.  `Spanned` and `SpannedWithSource` only
add the place of the error and are left out. -/
inductive EvalErr where
  | avlTree | invalidResultType | unexpectedExpr | cost | tryExtract | notFound | registerIdOutOfBounds | unexpectedValue
  | arithmetic | misc | sigmaSerialization | sigmaParsing | ergoTree | boundedVec | scorexSerialization | scorexParsing
  deriving DecidableEq, Repr

/-- What an evaluation comes to: a value, an `EvalError`, a panic, or (`out`) nothing yet within the number of nested steps
allowed to the model, `ergotree-interpreter/src/eval/error.rs:22-77`. -/
inductive Res (α : Type) where
  | ok (a : α)
  | err (e : EvalErr)
  | panic
  | out
  deriving DecidableEq, Repr

namespace Res
variable {α β : Type}

/-- The `?` operator, e.g. `ergotree-interpreter/src/eval/coll_by_index.rs:25`. -/
def bind : Res α → (α → Res β) → Res β
  | ok a, f => f a
  | err e, _ => err e
  | panic, _ => panic
  | out, _ => out

/-- `?` for `Res`, as in `ergotree-interpreter/src/eval/coll_by_index.rs:25`. -/
instance : Monad Res where
  pure := ok
  bind := bind

/-- `ok_or(e)?`, e.g. `ergotree-interpreter/src/eval/scoll.rs:26, 30`. -/
def ofOption (e : EvalErr) : Option α → Res α
  | some a => ok a
  | none => err e

/-- A `Result` of another module with its `Err` turned into `e`, the `From` instances of `EvalError`,
`ergotree-interpreter/src/eval/error.rs:22-77`. -/
def ofOutcome (e : EvalErr) : Outcome α → Res α
  | .ok a => ok a
  | .err => err e
  | .panic => panic

/-- `iter().map(f).collect::<Result<Vec<_>, _>>()` for functions that do not evaluate scripts, e.g.
`ergotree-interpreter/src/eval/atleast.rs:36`. -/
def mapAll (f : α → Res β) : List α → Res (List β)
  | [] => ok []
  | a :: l => do
    let b ← f a
    let bs ← mapAll f l
    pure (b :: bs)

end Res

/-- `Value`, `mir/value.rs:138-177`.  `NativeColl` and `WrappedColl` (`:47-57`) are two constructors, `Opt` is two
constructors, `TupleItems` is a list, `BigInt256` is an `Int` (the operations that make one check its range). -/
inductive Value (G B : Type) where
  | unit
  | bool (b : Bool)
  | byte (v : BitVec 8)
  | short (v : BitVec 16)
  | int (v : BitVec 32)
  | long (v : BitVec 64)
  | bigInt (v : Int)
  | groupElement (g : G)
  | sigmaProp (p : SigmaBoolean G)
  | box (b : B)
  | avlTree (a : AvlTreeData)
  | collByte (bytes : Bytes)
  | coll (elem : SType) (items : List (Value G B))
  | tup (items : List (Value G B))
  | context
  | header (h : Header G)
  | preHeader (h : PreHeader G)
  | global
  | none
  | some (v : Value G B)
  | lam (args : List (BitVec 32 × SType)) (body : Expr G B)

namespace Value
variable {G B : Type}

mutual
/-- `From<Literal> for Value`, `mir/value.rs:216-244`. -/
def ofLiteral : Literal G B → Value G B
  | .unit => unit
  | .bool b => bool b
  | .byte v => byte v
  | .short v => short v
  | .int v => int v
  | .long v => long v
  | .bigInt v => bigInt v
  | .groupElement g => groupElement g
  | .sigmaProp p => sigmaProp p
  | .avlTree a => avlTree a
  | .box b => box b
  | .collByte b => collByte b
  | .coll t items => coll t (ofLiterals items)
  | .tup items => tup (ofLiterals items)
  | .none => none
  | .some v => some (ofLiteral v)
/-- `items.into_iter().map(Value::from)`, `mir/value.rs:234`. -/
def ofLiterals : List (Literal G B) → List (Value G B)
  | [] => []
  | x :: l => ofLiteral x :: ofLiterals l
end

mutual
/-- `TryFrom<Value> for Constant`, `mir/constant.rs:286-362`.  An option gets the type of its content (`:327-334`). -/
def toConstant : Value G B → Option (Constant G B)
  | bool b => Option.some { tpe := .bool, v := .bool b }
  | byte v => Option.some { tpe := .byte, v := .byte v }
  | short v => Option.some { tpe := .short, v := .short v }
  | int v => Option.some { tpe := .int, v := .int v }
  | long v => Option.some { tpe := .long, v := .long v }
  | bigInt v => Option.some { tpe := .bigInt, v := .bigInt v }
  | unit => Option.some { tpe := .unit, v := .unit }
  | sigmaProp p => Option.some { tpe := .sigmaProp, v := .sigmaProp p }
  | groupElement g => Option.some { tpe := .groupElement, v := .groupElement g }
  | box b => Option.some { tpe := .box, v := .box b }
  | collByte b => Option.some { tpe := .coll .byte, v := .collByte b }
  | coll t items => do
    let l ← toConstants items
    Option.some { tpe := .coll t, v := .coll t (l.map Constant.v) }
  | some v => do
    let c ← toConstant v
    Option.some { tpe := c.tpe, v := .some c.v }
  | tup items => do
    let l ← toConstants items
    Option.some { tpe := .tuple (l.map Constant.tpe), v := .tup (l.map Constant.v) }
  | avlTree a => Option.some { tpe := .avlTree, v := .avlTree a }
  | _ => Option.none
/-- The item loops, `mir/constant.rs:312-315, 338-341`. -/
def toConstants : List (Value G B) → Option (List (Constant G B))
  | [] => Option.some []
  | x :: l => do
    let c ← toConstant x
    let cs ← toConstants l
    Option.some (c :: cs)
end

/-- `try_extract_into::<bool>`, `mir/value.rs:356-366`. -/
def asBool : Value G B → Res Bool
  | bool b => .ok b
  | _ => .err .tryExtract
/-- `try_extract_into::<i8>`, `mir/value.rs:368-375`. -/
def asByte : Value G B → Res (BitVec 8)
  | byte v => .ok v
  | _ => .err .tryExtract
/-- `try_extract_into::<i16>`, `mir/value.rs:377-384`. -/
def asShort : Value G B → Res (BitVec 16)
  | short v => .ok v
  | _ => .err .tryExtract
/-- `try_extract_into::<i32>`, `mir/value.rs:386-393`. -/
def asInt : Value G B → Res (BitVec 32)
  | int v => .ok v
  | _ => .err .tryExtract
/-- `try_extract_into::<i64>`, `mir/value.rs:395-402`. -/
def asLong : Value G B → Res (BitVec 64)
  | long v => .ok v
  | _ => .err .tryExtract
/-- `try_extract_into::<BigInt256>`, `mir/value.rs:550-561`. -/
def asBigInt : Value G B → Res Int
  | bigInt v => .ok v
  | _ => .err .tryExtract
/-- `try_extract_into::<EcPoint>`, `mir/value.rs:404-414`. -/
def asPoint : Value G B → Res G
  | groupElement g => .ok g
  | _ => .err .tryExtract
/-- `try_extract_into::<SigmaProp>`, `mir/value.rs:416-426`. -/
def asSigma : Value G B → Res (SigmaBoolean G)
  | sigmaProp p => .ok p
  | _ => .err .tryExtract
/-- `try_extract_into::<Arc<ErgoBox>>`, `mir/value.rs:428-438`. -/
def asBox : Value G B → Res B
  | box b => .ok b
  | _ => .err .tryExtract
/-- `try_extract_into::<Header>`, `mir/value.rs:440-450`. -/
def asHeader : Value G B → Res (Header G)
  | header h => .ok h
  | _ => .err .tryExtract
/-- `try_extract_into::<PreHeader>`, `mir/value.rs:452-462`. -/
def asPreHeader : Value G B → Res (PreHeader G)
  | preHeader h => .ok h
  | _ => .err .tryExtract
/-- `try_extract_into::<AvlTreeData>`, `mir/value.rs:563-574`. -/
def asAvl : Value G B → Res AvlTreeData
  | avlTree a => .ok a
  | _ => .err .tryExtract
/-- `try_extract_into::<Vec<i8>>` and `<Vec<u8>>`, `mir/value.rs:517-542`: only byte collections. -/
def asBytes : Value G B → Res Bytes
  | collByte b => .ok b
  | _ => .err .tryExtract
/-- `try_extract_into::<Vec<T>>` for the types stored as wrapped values, `mir/value.rs:464-485`: only wrapped collections. -/
def asVecOf {α : Type} (f : Value G B → Res α) : Value G B → Res (List α)
  | coll _ items => Res.mapAll f items
  | _ => .err .tryExtract
/-- `try_extract_into::<(Vec<u8>, Vec<u8>)>`, `mir/value.rs:606-627`; a longer tuple is accepted. -/
def asBytesPair : Value G B → Res (Bytes × Bytes)
  | tup (a :: rest) => do
    let x ← a.asBytes
    match rest with
    | b :: _ => do
      let y ← b.asBytes
      pure (x, y)
    | [] => .err .tryExtract
  | _ => .err .tryExtract

/-- `Value::Coll(coll)`: element type and items (`CollKind::elem_tpe`, `CollKind::as_vec`, `mir/value.rs:102-124`). -/
def collParts : Value G B → Option (SType × List (Value G B))
  | collByte b => Option.some (.byte, b.map byte)
  | coll t items => Option.some (t, items)
  | _ => Option.none

/-- The `match` on `Value::Coll` with its `UnexpectedValue`, e.g. `coll_slice.rs:16-22`. -/
def asColl (v : Value G B) : Res (SType × List (Value G B)) := Res.ofOption .unexpectedValue v.collParts

/-- `CollKind::from_vec`, `mir/value.rs:68-77`: only items of type `SByte` are looked at. -/
def fromVec (t : SType) (items : List (Value G B)) : Res (Value G B) :=
  match t with
  | .byte => do
    let b ← Res.mapAll asByte items
    pure (collByte b)
  | _ => .ok (coll t items)

/-- `CollKind::from_vec_vec`, `mir/value.rs:80-99`. -/
def fromVecVec (t : SType) (items : List (Value G B)) : Res (Value G B) :=
  match t with
  | .byte => do
    let b ← Res.mapAll asBytes items
    pure (collByte b.flatten)
  | _ => do
    let l ← Res.mapAll (asVecOf .ok) items
    pure (coll t l.flatten)

/-- `Value::Opt`, `ergotree-ir/src/mir/value.rs:174`. -/
def ofOption : Option (Value G B) → Value G B
  | Option.some v => some v
  | Option.none => none

end Value

/-- `Env`, `eval/env.rs:9-47`, and the cost accumulated so far (`eval/cost_accum.rs:6-10`; the counter is unbounded here). -/
structure EvalSt (G B : Type) where
  env : FMap (BitVec 32) (Value G B)
  cost : Nat

/-- An evaluation routine `fn eval(&self, env: &mut Env, ctx: &mut EvalContext) -> Result<_, EvalError>`
(`eval.rs:211-214`).  The state after an error is dropped: no routine continues after an error of a routine it called. -/
def EvalM (G B α : Type) : Type := EvalSt G B → Res (α × EvalSt G B)

namespace EvalM
variable {G B α β : Type}

/-- A routine that does nothing but return `a`, `Ok(a)` of `ergotree-interpreter/src/eval.rs:211-214`. -/
protected def pure (a : α) : EvalM G B α := fun s => .ok (a, s)
/-- Sequencing with `?`, e.g. `ergotree-interpreter/src/eval/coll_by_index.rs:25`. -/
protected def bind (m : EvalM G B α) (f : α → EvalM G B β) : EvalM G B β := fun s =>
  match m s with
  | .ok (a, s') => f a s'
  | .err e => .err e
  | .panic => .panic
  | .out => .out

/-- `?` inside `eval`, as in `ergotree-interpreter/src/eval/coll_by_index.rs:25`. -/
instance : Monad (EvalM G B) where
  pure := EvalM.pure
  bind := EvalM.bind

/-- A computation that touches neither the environment nor the cost, e.g. `ergotree-interpreter/src/eval/bin_op.rs:37-171`. -/
def lift (r : Res α) : EvalM G B α := fun s =>
  match r with
  | .ok a => .ok (a, s)
  | .err e => .err e
  | .panic => .panic
  | .out => .out

/-- See `EM.lift`, `ergotree-interpreter/src/eval/bin_op.rs:37-171`. -/
instance : MonadLift Res (EvalM G B) := ⟨lift⟩

/-- `Err(e)`, e.g. `ergotree-interpreter/src/eval/scoll.rs:26, 30`. -/
def fail (e : EvalErr) : EvalM G B α := lift (.err e)

end EvalM
end Verif
