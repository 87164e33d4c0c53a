import Verif.Model.Base

/-!
# What a VLQ byte string means

Independent of the encoder/decoder loops: little-endian base 128 digits, the top bit of a byte says "more follows".
-/

namespace Verif.Spec

/-- "more bytes follow" flag of a byte. -/
def more (b : Byte) : Bool := decide (128 ≤ b.toNat)

/-- Number denoted by a group of bytes: base 128, least significant digit first. -/
def vlqValue : Bytes → Nat
  | [] => 0
  | b :: bs => b.toNat % 128 + 128 * vlqValue bs

/-- A complete VLQ group: every byte but the last has the flag, the last has not. -/
def vlqGroup : Bytes → Bool
  | [] => false
  | [b] => !more b
  | b :: bs => more b && vlqGroup bs

end Verif.Spec
