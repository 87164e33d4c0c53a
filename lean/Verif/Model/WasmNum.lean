import Verif.Model.Value
import Verif.Model.JsConv
import Verif.Model.RustConst

/-!
# Numbers, amounts and collections of the JavaScript interface

Source: `bindings/ergo-lib-wasm/src/{utils,ergo_box,token,box_coll,block_header,data_input,input,secret_key,ast}.rs`.
-/

namespace Verif.Wasm

/-- `I64::from_str`, `utils.rs:32-34`. -/
def i64FromStr (s : Text) : Outcome (BitVec 64) :=
  match JsConv.parseI64 s with
  | some v => .ok v
  | none => .err

/-- `I64::to_str`, `utils.rs:37-39`. -/
def i64ToStr (v : BitVec 64) : Text := Json.bigText v.toInt

/-- The rounding in `self.0 as f64`, `utils.rs:43`: the quotient by `2 ^ k`, to the nearest, half to even. -/
def roundEven (n k : Nat) : Nat :=
  if 2 * (n % 2 ^ k) < 2 ^ k then n / 2 ^ k
  else if 2 ^ k < 2 * (n % 2 ^ k) then n / 2 ^ k + 1
  else if n / 2 ^ k % 2 = 0 then n / 2 ^ k else n / 2 ^ k + 1

/-- The number of bits dropped by `self.0 as f64`, `utils.rs:43`: a double keeps 53 of them. -/
def dropped (n : Nat) : Nat := Nat.log2 n - 52

/-- `I64::as_num`, `utils.rs:42-44`. -/
def i64AsNum (v : BitVec 64) : JsNum :=
  let n := v.toInt.natAbs
  .fin (v.toInt.sign * roundEven n (dropped n)) (dropped n)

/-- `I64::checked_add`, `utils.rs:47-52`. -/
def i64CheckedAdd (a b : BitVec 64) : Outcome (BitVec 64) :=
  if BitVec.saddOverflow a b then .err else .ok (a + b)

/-- `BoxValue::from_i64`, `ergo_box.rs:302-307`: the bits are taken as a `u64`, then the bounds are checked. -/
def boxValueFromI64 (v : BitVec 64) : Outcome Nat :=
  match BoxValue.tryFromU64 v.toNat with
  | some a => .ok a
  | none => .err

/-- `BoxValue::as_i64`, `ergo_box.rs:310-312` (`box_value.rs`: `self.0 as i64`). -/
def boxValueAsI64 (a : Nat) : BitVec 64 := BitVec.ofNat 64 a

/-- `TokenAmount::from_i64`, `token.rs:65-69`. -/
def tokenAmountFromI64 (v : BitVec 64) : Outcome Nat :=
  match TokenAmount.tryFromU64 v.toNat with
  | some a => .ok a
  | none => .err

/-- `TokenAmount::as_i64`, `token.rs:72-74`. -/
def tokenAmountAsI64 (a : Nat) : BitVec 64 := BitVec.ofNat 64 a

/-- `to_bytes`, `ergo_box.rs:315-317`, `token.rs:77-79`: `u64::to_be_bytes`. -/
def amountToBytes (a : Nat) : Bytes := (List.range 8).map fun i => BitVec.ofNat 8 (a / 256 ^ (7 - i))

/-- `Constant::to_i64_str_array`, `ast.rs:161-173`, after the extraction. -/
def longsToJs (l : List (BitVec 64)) : List Js := l.map fun v => .str (i64ToStr v)

/-- One item of `Constant::from_i64_str_array`, `ast.rs:139-146`: a text is read as JSON (`S`), everything else is turned into JSON
first (`N`). -/
def longFromJs (S : Text → Option (BitVec 64)) (N : Js → Option (BitVec 64)) : Js → Option (BitVec 64)
  | .str s => S s
  | j => N j

/-- `Constant::from_i64_str_array`, `ast.rs:134-159`, before the constant is made. -/
def longsFromJs (S : Text → Option (BitVec 64)) (N : Js → Option (BitVec 64)) : List Js → Outcome (List (BitVec 64))
  | [] => .ok []
  | j :: l =>
    match longFromJs S N j with
    | none => .err
    | some v =>
      match longsFromJs S N l with
      | .ok vs => .ok (v :: vs)
      | e => e

/-- The `get` of `ErgoBoxes` (`box_coll.rs:58-60`), `ErgoBoxCandidates` (`:107-109`), `BlockHeaders` (`block_header.rs:108-110`),
`DataInputs` (`data_input.rs:50-52`), `UnsignedInputs` and `Inputs` (`input.rs:67-69, 125-127`), `SecretKeys`
(`secret_key.rs:148-150`), `ErgoBoxAssetsDataList` (`ergo_box.rs:378-380`): an index into the vector. -/
def collGet {α : Type} (l : List α) (i : Nat) : Outcome α :=
  match l[i]? with
  | some a => .ok a
  | none => .panic

/-- `Tokens::get`, `token.rs:161-166`. -/
def tokensGet {α : Type} (l : List α) (i : Nat) : Outcome α :=
  match l[i]? with
  | some a => .ok a
  | none => .err

/-- The `add` of the collections, `box_coll.rs:53-55`, `token.rs:169-171`, `block_header.rs:103-105`. -/
def collAdd {α : Type} (l : List α) (a : α) : List α := l ++ [a]

/-- `TryFrom<BlockHeaders> for Headers`, `block_header.rs:126-141`. -/
def headersFrom {α : Type} (l : List α) : Outcome (List α) :=
  if l.length = 10 then .ok l else .err

end Verif.Wasm
