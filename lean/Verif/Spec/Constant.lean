import Verif.Model.Constant

/-!
# Which values belong to which type

Stated without reference to the codec.
-/

namespace Verif.Spec
open Literal

mutual
/-- `v` is a value of type `t`, within the bounds of the Rust types (256-bit integers, 33 byte digests, three flag
bits, 2..255 conjecture children) and with collections of at most 65535 elements.  `bwf` says which boxes are fine. -/
def WellTyped {G B : Type} (bwf : B → Prop) : Literal G B → SType → Prop
  | .unit, .unit => True
  | .bool _, .bool => True
  | .byte _, .byte => True
  | .short _, .short => True
  | .int _, .int => True
  | .long _, .long => True
  | .bigInt n, .bigInt => -2 ^ 255 ≤ n ∧ n ≤ 2 ^ 255 - 1
  | .groupElement _, .groupElement => True
  | .sigmaProp p, .sigmaProp => p.Bounded
  | .avlTree a, .avlTree => a.digest.length = 33 ∧ a.flags.toNat < 8
  | .box b, .box => bwf b
  | .collByte l, .coll e => e = .byte ∧ l.length ≤ 65535
  | .coll e items, .coll e' => e = e' ∧ e ≠ .byte ∧ items.length ≤ 65535 ∧ AllOf bwf items e
  | .tup items, .tuple ts => 2 ≤ items.length ∧ items.length ≤ 255 ∧ Pointwise bwf items ts
  | _, _ => False
/-- All items have type `e`. -/
def AllOf {G B : Type} (bwf : B → Prop) : List (Literal G B) → SType → Prop
  | [], _ => True
  | x :: l, e => WellTyped bwf x e ∧ AllOf bwf l e
/-- Item by item typing. -/
def Pointwise {G B : Type} (bwf : B → Prop) : List (Literal G B) → List SType → Prop
  | [], [] => True
  | x :: l, t :: ts => WellTyped bwf x t ∧ Pointwise bwf l ts
  | _, _ => False
end

/-- What the round trip needs of the box codec. -/
def BoxRoundTrips {B : Type} (bc : BoxCodec B) (bwf : B → Prop) : Prop :=
  ∀ b, bwf b → ∃ bs, bc.ser b = .ok bs ∧ ∀ rest, bc.parse (bs ++ rest) = some (b, rest)

/-- What is needed to know that parsed constants are well typed: parsed boxes are fine. -/
def BoxParsed {B : Type} (bc : BoxCodec B) (bwf : B → Prop) : Prop :=
  ∀ s b r, bc.parse s = some (b, r) → bwf b

end Verif.Spec
