import Verif.Spec.JsConv

/-!
# Whole numbers a JavaScript number can hold

Stated without reference to the conversion.
-/

namespace Verif.Spec

/-- A whole number that a double holds: 53 bits and a power of two. -/
def WholeDouble (x : Int) : Prop := ∃ (m : Int) (e : Nat), -(2 ^ 53) ≤ m ∧ m ≤ 2 ^ 53 ∧ e ≤ 971 ∧ x = m * 2 ^ e

/-- The double is a whole number, no other whole number held by a double is closer to `v`; if another is as close, the double is an even
multiple of their distance. -/
def NearestDouble (n : JsNum) (v : Int) : Prop :=
  ∃ x : Int, NumIs n x ∧ WholeDouble x ∧ (∀ y : Int, WholeDouble y → (x - v).natAbs ≤ (y - v).natAbs) ∧
    ∀ y : Int, WholeDouble y → y ≠ x → (y - v).natAbs = (x - v).natAbs → 2 * (y - x) ∣ x

end Verif.Spec
