import Verif.Model.EvalValue
import Mathlib.Data.Int.Bitwise

/-!
# Arithmetic of the script interpreter

Source: `ergotree-interpreter/src/eval/{bin_op,negation,bit_inversion,upcast,downcast,byte_array_to_long,byte_array_to_bigint,
long_to_byte_array,xor}.rs`, `ergotree-ir/src/bigint256.rs`.

`i8`, `i16`, `i32`, `i64` are bit vectors with Rust's operations on them; `BigInt256` is an `Int`.  The checked operations of
`num256::Int256` (a dependency) are modelled by what they document: the exact result when it fits 256 bits.
-/

namespace Verif

/-- What the generic functions of `bin_op.rs:37-171` use of a number type: `CheckedAdd` … `Ord`, bit operations, and the
conversions from and to `Value`. -/
structure NumOps (G B α : Type) where
  extract : Value G B → Res α
  wrap : α → Value G B
  add : α → α → Option α
  sub : α → α → Option α
  mul : α → α → Option α
  div : α → α → Option α
  rem : α → α → Option α
  neg : α → Option α
  lt : α → α → Bool
  le : α → α → Bool
  bitAnd : α → α → α
  bitOr : α → α → α
  bitXor : α → α → α
  bitNot : α → α

namespace NumOps
variable {G B α : Type}

/-- The operations of `iN`: `checked_add` etc. give `None` when the two's complement operation overflows; `checked_div` and
`checked_rem` also for a zero divisor and for `MIN / -1`, `MIN % -1`; division truncates, used at
`ergotree-interpreter/src/eval/bin_op.rs:37-171`. -/
def machine {n : Nat} (extract : Value G B → Res (BitVec n)) (wrap : BitVec n → Value G B) : NumOps G B (BitVec n) where
  extract := extract
  wrap := wrap
  add a b := if a.saddOverflow b then none else some (a + b)
  sub a b := if a.ssubOverflow b then none else some (a - b)
  mul a b := if a.smulOverflow b then none else some (a * b)
  div a b := if b = 0 ∨ a.sdivOverflow b then none else some (a.sdiv b)
  rem a b := if b = 0 ∨ a.sdivOverflow b then none else some (a.srem b)
  neg a := if a.negOverflow then none else some (-a)
  lt a b := a.slt b
  le a b := a.sle b
  bitAnd a b := a &&& b
  bitOr a b := a ||| b
  bitXor a b := a ^^^ b
  bitNot a := ~~~a

/-- `BigInt256`, `bigint256.rs:173-271`.  `checked_rem` refuses divisors that are not positive and rounds down (`:206-213`). -/
def big : NumOps G B Int where
  extract := Value.asBigInt
  wrap := Value.bigInt
  add a b := bigInt256 (a + b)
  sub a b := bigInt256 (a - b)
  mul a b := bigInt256 (a * b)
  div a b := if b = 0 then none else bigInt256 (a.tdiv b)
  rem a b := if b ≤ 0 then none else some (a.fmod b)
  neg a := if a = -2 ^ 255 then none else some (-a)
  lt a b := decide (a < b)
  le a b := decide (a ≤ b)
  bitAnd a b := a.land b
  bitOr a b := a.lor b
  bitXor a b := a.xor b
  bitNot a := a.lnot

/-- `ok_or_else(arithmetic_err)` and the conversion to `Value`, `bin_op.rs:42-45`. -/
def finish (o : NumOps G B α) : Option α → Res (Value G B)
  | some t => .ok (o.wrap t)
  | none => .err .arithmetic

/-- `eval_plus`, `eval_minus`, `eval_mul`, `eval_div`, `eval_mod`, `eval_max`, `eval_min`, `eval_bit_op`, `eval_gt`, `eval_lt`,
`eval_ge`, `eval_le`: `bin_op.rs:37-171`, once the left value is known to be a number.  `Ord::max` and `min` give the right
operand on ties.  The remaining kinds do not come here. -/
def apply (o : NumOps G B α) (k : BinK) (l : α) (rv : Value G B) : Res (Value G B) := do
  let r ← o.extract rv
  match k with
  | .plus => o.finish (o.add l r)
  | .minus => o.finish (o.sub l r)
  | .multiply => o.finish (o.mul l r)
  | .divide => o.finish (o.div l r)
  | .modulo => o.finish (o.rem l r)
  | .max => .ok (o.wrap (if o.lt r l then l else r))
  | .min => .ok (o.wrap (if o.lt r l then r else l))
  | .gt => .ok (.bool (o.lt r l))
  | .lt => .ok (.bool (o.lt l r))
  | .ge => .ok (.bool (o.le r l))
  | .le => .ok (.bool (o.le l r))
  | .bitAnd => .ok (o.wrap (o.bitAnd l r))
  | .bitOr => .ok (o.wrap (o.bitOr l r))
  | .bitXor => .ok (o.wrap (o.bitXor l r))
  | _ => .err .unexpectedValue

end NumOps

namespace Value
variable {G B : Type}

/-- The arms `Value::Byte … Value::BigInt` of the matches of `bin_op.rs:101-155, 203-317`: the operation with its left operand
filled in; `none` is the last arm (the left value is not a number). -/
def leftNum (k : BinK) : Value G B → Option (Value G B → Res (Value G B))
  | byte l => Option.some ((NumOps.machine asByte byte).apply k l)
  | short l => Option.some ((NumOps.machine asShort short).apply k l)
  | int l => Option.some ((NumOps.machine asInt int).apply k l)
  | long l => Option.some ((NumOps.machine asLong long).apply k l)
  | bigInt l => Option.some (NumOps.big.apply k l)
  | _ => Option.none

/-- Both operands evaluated: `bin_op.rs:101-155, 203-317`. -/
def binNum (k : BinK) (l r : Value G B) : Res (Value G B) :=
  match leftNum k l with
  | Option.some f => f r
  | Option.none => .err .unexpectedValue

/-- `Negation`, `negation.rs:12-32`. -/
def negate : Value G B → Res (Value G B)
  | byte v => (NumOps.machine asByte byte).finish ((NumOps.machine (G := G) (B := B) asByte byte).neg v)
  | short v => (NumOps.machine asShort short).finish ((NumOps.machine (G := G) (B := B) asShort short).neg v)
  | int v => (NumOps.machine asInt int).finish ((NumOps.machine (G := G) (B := B) asInt int).neg v)
  | long v => (NumOps.machine asLong long).finish ((NumOps.machine (G := G) (B := B) asLong long).neg v)
  | bigInt v => NumOps.big.finish ((NumOps.big (G := G) (B := B)).neg v)
  | _ => .err .unexpectedValue

/-- `BitInversion`, `bit_inversion.rs:11-22`. -/
def invert : Value G B → Res (Value G B)
  | byte v => .ok (byte (~~~v))
  | short v => .ok (short (~~~v))
  | int v => .ok (int (~~~v))
  | long v => .ok (long (~~~v))
  | bigInt v => .ok (bigInt v.lnot)
  | _ => .err .unexpectedValue

/-- `Upcast`, `upcast.rs:11-86` (`as` between signed types extends the sign). -/
def upcast (t : SType) (v : Value G B) : Res (Value G B) :=
  match t with
  | .bigInt =>
    match v with
    | byte x => .ok (bigInt x.toInt)
    | short x => .ok (bigInt x.toInt)
    | int x => .ok (bigInt x.toInt)
    | long x => .ok (bigInt x.toInt)
    | bigInt x => .ok (bigInt x)
    | _ => .err .unexpectedValue
  | .long =>
    match v with
    | byte x => .ok (long (x.signExtend 64))
    | short x => .ok (long (x.signExtend 64))
    | int x => .ok (long (x.signExtend 64))
    | long x => .ok (long x)
    | _ => .err .unexpectedValue
  | .int =>
    match v with
    | byte x => .ok (int (x.signExtend 32))
    | short x => .ok (int (x.signExtend 32))
    | int x => .ok (int x)
    | _ => .err .unexpectedValue
  | .short =>
    match v with
    | byte x => .ok (short (x.signExtend 16))
    | short x => .ok (short x)
    | _ => .err .unexpectedValue
  | .byte =>
    match v with
    | byte x => .ok (byte x)
    | _ => .err .unexpectedValue
  | _ => .err .unexpectedValue

/-- `iM::try_from(iN)`: the low bits when the value is in range, `ergotree-interpreter/src/eval/downcast.rs:43, 59, 65, 81`. -/
def narrow {n : Nat} (m : Nat) (wrap : BitVec m → Value G B) (x : BitVec n) : Res (Value G B) :=
  if -2 ^ (m - 1) ≤ x.toInt ∧ x.toInt < 2 ^ (m - 1) then .ok (wrap (x.setWidth m)) else .err .unexpectedValue

/-- `Downcast`, `downcast.rs:12-121`. -/
def downcast (t : SType) (v : Value G B) : Res (Value G B) :=
  match t with
  | .bigInt =>
    match v with
    | byte x => .ok (bigInt x.toInt)
    | short x => .ok (bigInt x.toInt)
    | int x => .ok (bigInt x.toInt)
    | long x => .ok (bigInt x.toInt)
    | _ => .err .unexpectedValue
  | .long =>
    match v with
    | byte x => .ok (long (x.signExtend 64))
    | short x => .ok (long (x.signExtend 64))
    | int x => .ok (long (x.signExtend 64))
    | long x => .ok (long x)
    | _ => .err .unexpectedValue
  | .int =>
    match v with
    | byte x => .ok (int (x.signExtend 32))
    | short x => .ok (int (x.signExtend 32))
    | int x => .ok (int x)
    | long x => narrow 32 int x
    | _ => .err .unexpectedValue
  | .short =>
    match v with
    | short x => .ok (short x)
    | int x => narrow 16 short x
    | long x => narrow 16 short x
    | _ => .err .unexpectedValue
  | .byte =>
    match v with
    | byte x => .ok (byte x)
    | short x => narrow 8 byte x
    | int x => narrow 8 byte x
    | long x => narrow 8 byte x
    | _ => .err .unexpectedValue
  | _ => .err .unexpectedValue

end Value

/-- `ByteArrayToLong`, `byte_array_to_long.rs:12-28`: `input[i] as i64` extends the sign of each byte. -/
def bytesToLong (input : Bytes) : Res (BitVec 64) :=
  match input with
  | b0 :: b1 :: b2 :: b3 :: b4 :: b5 :: b6 :: b7 :: _ =>
    .ok ((b0.signExtend 64 <<< 56) ||| (b1.signExtend 64 <<< 48) ||| (b2.signExtend 64 <<< 40) |||
      (b3.signExtend 64 <<< 32) ||| (b4.signExtend 64 <<< 24) ||| (b5.signExtend 64 <<< 16) |||
      (b6.signExtend 64 <<< 8) ||| b7.signExtend 64)
  | _ => .err .unexpectedValue

/-- The loop of `LongToByteArray`, `long_to_byte_array.rs:13-18`, filling `k` bytes from the last to the first. -/
def longBytesLoop : Nat → BitVec 64 → Bytes
  | 0, _ => []
  | k + 1, val => longBytesLoop k (val.sshiftRight 8) ++ [(val &&& 0xFF).setWidth 8]

/-- `LongToByteArray`, `long_to_byte_array.rs:10-21`. -/
def longToBytes (val : BitVec 64) : Bytes := longBytesLoop 8 val

/-- `ByteArrayToBigInt`, `byte_array_to_bigint.rs:15-26`, with `TryFrom<&[u8]> for BigInt256`, `bigint256.rs:55-62`. -/
def bytesToBigInt (input : Bytes) : Res Int :=
  if input.isEmpty then .err .unexpectedValue else Res.ofOption .unexpectedValue (bigInt256 (signedOfBe input))

/-- `helper_xor`, `xor.rs:11-14`, `sglobal.rs:9-12`: the bytes of `x` beyond the length of `y` stay. -/
def xorBytes : Bytes → Bytes → Bytes
  | a :: x, b :: y => (a ^^^ b) :: xorBytes x y
  | x, _ => x

end Verif
