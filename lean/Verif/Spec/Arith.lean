import Verif.Model.EvalValue

/-!
# Arithmetic of scripts: what the operations should give

Numbers are integers here; nothing refers to bit vectors or to the routines of the model.
-/

namespace Verif.Spec
variable {G B : Type}

/-- The five number types of ErgoScript. -/
inductive NumTy where
  | byte | short | int | long | big
  deriving DecidableEq, Repr

/-- Size in bits. -/
def NumTy.bits : NumTy → Nat
  | byte => 8 | short => 16 | int => 32 | long => 64 | big => 256

/-- A signed number of `n` bits. -/
def Fits (n : Nat) (x : Int) : Prop := -2 ^ (n - 1) ≤ x ∧ x < 2 ^ (n - 1)

/-- The numbers of a type. -/
def NumTy.Holds (t : NumTy) (x : Int) : Prop := Fits t.bits x

/-- The `SType` of a number type. -/
def NumTy.stype : NumTy → SType
  | byte => .byte | short => .short | int => .int | long => .long | big => .bigInt

/-- `v` is the number `x` of type `t`. -/
inductive IsNum : Value G B → NumTy → Int → Prop where
  | byte (v : BitVec 8) : IsNum (.byte v) .byte v.toInt
  | short (v : BitVec 16) : IsNum (.short v) .short v.toInt
  | int (v : BitVec 32) : IsNum (.int v) .int v.toInt
  | long (v : BitVec 64) : IsNum (.long v) .long v.toInt
  | big (v : Int) (h : NumTy.Holds .big v) : IsNum (.bigInt v) .big v

/-- The number type of a value, if it is a number. -/
def numTy : Value G B → Option NumTy
  | .byte _ => some .byte
  | .short _ => some .short
  | .int _ => some .int
  | .long _ => some .long
  | .bigInt _ => some .big
  | _ => none

/-- The exact result of `+`, `-`, `*`, `/` (towards zero), `max` and `min`; `none` when there is none. -/
def exact : BinK → Int → Int → Option Int
  | .plus, a, b => some (a + b)
  | .minus, a, b => some (a - b)
  | .multiply, a, b => some (a * b)
  | .divide, a, b => if b = 0 then none else some (a.tdiv b)
  | .max, a, b => some (max a b)
  | .min, a, b => some (min a b)
  | _, _, _ => none

/-- The kinds `exact` speaks about. -/
def isArith : BinK → Bool
  | .plus | .minus | .multiply | .divide | .max | .min => true
  | _ => false

/-- The truth of a comparison. -/
def compare : BinK → Int → Int → Option Bool
  | .gt, a, b => some (decide (b < a))
  | .lt, a, b => some (decide (a < b))
  | .ge, a, b => some (decide (b ≤ a))
  | .le, a, b => some (decide (a ≤ b))
  | _, _, _ => none

/-- Digit `i` of the two's complement of `x`, which goes on forever to the left. -/
def digit (x : Int) (i : Nat) : Bool := decide (x / 2 ^ i % 2 = 1)

/-- The bitwise operations on one digit. -/
def bitFn : BinK → Option (Bool → Bool → Bool)
  | .bitAnd => some and
  | .bitOr => some or
  | .bitXor => some xor
  | _ => none

/-- The order of the number types: what `upcast` may go along. -/
def NumTy.rank : NumTy → Nat
  | byte => 0 | short => 1 | int => 2 | long => 3 | big => 4

end Verif.Spec

namespace Verif.Spec

/-- The number with the base-256 digits `l` after the digits of `a`. -/
def appendBytes (a : Int) (l : Bytes) : Int := l.foldl (fun a c => a * 256 + c.toNat) a

/-- Big-endian two's complement: the first byte carries the sign, the others are digits. -/
def twos : Bytes → Int
  | [] => 0
  | b :: l => appendBytes b.toInt l

/-- Every byte with the top bit set, other than the first, has only `0xFF` before it. -/
def SignClean (bs : Bytes) : Prop := ∀ i j : Nat, j < i → ∀ b, bs[i]? = some b → 128 ≤ b.toNat → bs[j]? = some 255

end Verif.Spec
