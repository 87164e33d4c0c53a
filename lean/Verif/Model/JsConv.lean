import Verif.Model.Constant
import Verif.Model.JsonChain

/-!
# Constants from and to JavaScript values

Source: `bindings/ergo-lib-wasm/src/ast/js_conv.rs`.

A JavaScript value is a tree; the casts of `wasm-bindgen` (`dyn_into`) are matches on it.
-/

namespace Verif

/-- A JavaScript number, seen at `js_conv.rs:100`: a double is `m * 2^e`, an infinity or not a number.  Several pairs stand for the
same number. -/
inductive JsNum where
  | nan
  | inf (negative : Bool)
  | fin (m e : Int)

/-- The JavaScript values told apart at `js_conv.rs:66-117`; `other` stands for all the rest (`undefined`, `null`, objects).  Texts
are sequences of characters (no lone surrogates). -/
inductive Js where
  | other
  | bool (b : Bool)
  | num (n : JsNum)
  | str (s : Text)
  | big (i : Int)
  | bytes (b : List (BitVec 8))
  | arr (l : List Js)

namespace JsConv
variable {G B : Type}

/-- `TUPLE_TOKEN`, `js_conv.rs:29`. -/
def tupleToken : Text := ['T', 'u', 'p', 'l', 'e']

/-- `array_as_tuple`, `js_conv.rs:33-40`. -/
def arrayAsTuple (items : List Js) : Js := .arr (.str tupleToken :: items)

/-- `num.value_of() as i32`, `js_conv.rs:100`: the fraction is dropped, values out of range go to the nearest bound, not a number
is zero. -/
def numToI32 : JsNum → BitVec 32
  | .nan => 0
  | .inf true => BitVec.ofInt 32 (-(2 ^ 31))
  | .inf false => BitVec.ofInt 32 (2 ^ 31 - 1)
  | .fin m e =>
    let t := if 0 ≤ e then m * 2 ^ e.toNat else Int.tdiv m (2 ^ (-e).toNat)
    BitVec.ofInt 32 (max (-(2 ^ 31)) (min (2 ^ 31 - 1) t))

/-- `str::parse::<i64>()`, used at `js_conv.rs:105, 146`: one sign, at least one digit, within the range. -/
def parseI64 : Text → Option (BitVec 64)
  | [] => none
  | c :: cs =>
    if c = '-' then
      if cs = [] then none else (Json.parseUint.go (2 ^ 63 + 1) 0 cs).map fun (n : Nat) => BitVec.ofInt 64 (-(n : Int))
    else
      let ds := if c = '+' then cs else c :: cs
      if ds = [] then none else (Json.parseUint.go (2 ^ 63) 0 ds).map fun (n : Nat) => BitVec.ofInt 64 n

/-- `js_bigint_to_ergo_bigint`, `js_conv.rs:206-212`: through the decimal text (`bigint256.rs:107-112` and `:22-36`). -/
def bigOfJs (i : Int) : Outcome Int :=
  match Json.bigInt (Json.bigText i) with
  | none => .err
  | some n => if n < -(2 ^ 255) then .err else if n > 2 ^ 255 - 1 then .err else .ok n

/-- `coll_long_from_js`, `js_conv.rs:136-152`. -/
def collLong : List Js → Option (List (BitVec 64))
  | [] => some []
  | .str s :: l => do
    let v ← parseI64 s
    let vs ← collLong l
    pure (v :: vs)
  | _ :: _ => none

/-- The constant made at `js_conv.rs:122-133`; a tuple has 2 to 255 items, the `unwrap` panics otherwise
(`ergotree-ir/src/types/stuple.rs:13`). -/
def tupleConst (cs : List (Constant G B)) : Outcome (Constant G B) :=
  if 2 ≤ cs.length ∧ cs.length ≤ 255 then .ok ⟨.tuple (cs.map Constant.tpe), .tup (cs.map Constant.v)⟩ else .panic

/-- The constant made at `js_conv.rs:90-97`: `cs[0]` panics for an empty array. -/
def collConst : List (Constant G B) → Outcome (Constant G B)
  | [] => .panic
  | c :: cs => .ok ⟨.coll c.tpe, .coll c.tpe ((c :: cs).map Constant.v)⟩

mutual
/-- `constant_from_js`, `js_conv.rs:65-117`. -/
def fromJs : Js → Outcome (Constant G B)
  | .bytes b => .ok ⟨.coll .byte, .collByte b⟩
  | .arr (.str s :: l) =>
    if s = tupleToken then do
      let cs ← fromJsAll l
      tupleConst cs
    else
      match collLong (.str s :: l) with
      | some vs => .ok ⟨.coll .long, .coll .long (vs.map .long)⟩
      | none => .err
  | .arr l => do
    let cs ← fromJsAll l
    collConst cs
  | .num n => .ok ⟨.int, .int (numToI32 n)⟩
  | .str s =>
    match parseI64 s with
    | some v => .ok ⟨.long, .long v⟩
    | none => .err
  | .big i => do
    let v ← bigOfJs i
    pure ⟨.bigInt, .bigInt v⟩
  | .bool _ => .err
  | .other => .err
/-- The loops at `js_conv.rs:86-89, 120-123`. -/
def fromJsAll : List Js → Outcome (List (Constant G B))
  | [] => .ok []
  | j :: l => do
    let c ← fromJs j
    let cs ← fromJsAll l
    pure (c :: cs)
end

/-- A Rust integer as a JavaScript number (`JsValue::from`), `js_conv.rs:157-159`. -/
def jsInt (i : Int) : Js := .num (.fin i 0)

mutual
/-- `constant_to_js`, `js_conv.rs:154-197`, with the value first. -/
def toJs : Literal G B → SType → Outcome Js
  | .bool b, .bool => .ok (.bool b)
  | .short v, .short => .ok (jsInt v.toInt)
  | .byte v, .byte => .ok (jsInt v.toInt)
  | .int v, .int => .ok (jsInt v.toInt)
  | .long v, .long => .ok (.str (Json.bigText v.toInt))
  | .bigInt v, .bigInt => .ok (.big v)
  | .collByte b, .coll _ => .ok (.bytes b)
  | .coll e items, .coll _ => do
    let js ← toJsColl items e
    pure (.arr js)
  | .tup items, .tuple ts => do
    let js ← toJsTuple items ts
    pure (.arr js)
  | _, _ => .err
/-- The loop at `js_conv.rs:167-173`. -/
def toJsColl : List (Literal G B) → SType → Outcome (List Js)
  | [], _ => .ok []
  | v :: l, e => do
    let j ← toJs v e
    let js ← toJsColl l e
    pure (j :: js)
/-- `zip`, `map` and `collect` at `js_conv.rs:180-184`: the longer list is cut. -/
def toJsTuple : List (Literal G B) → List SType → Outcome (List Js)
  | v :: l, t :: ts => do
    let j ← toJs v t
    let js ← toJsTuple l ts
    pure (j :: js)
  | _, _ => .ok []
end

end JsConv
end Verif
