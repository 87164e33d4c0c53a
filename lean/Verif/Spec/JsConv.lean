import Verif.Model.Constant
import Verif.Model.JsConv
import Verif.Spec.DerivationPath

/-!
# Which JavaScript value stands for which constant

Stated without reference to the conversions.
-/

namespace Verif.Spec

/-- A JavaScript number is the integer `i`. -/
def NumIs : JsNum → Int → Prop
  | .fin m e, i => if 0 ≤ e then m * 2 ^ e.toNat = i else m = i * 2 ^ (-e).toNat
  | _, _ => False

/-- The text is a 64-bit integer: at most one sign and at least one decimal digit. -/
def LongText (s : Text) (i : Int) : Prop :=
  -(2 ^ 63) ≤ i ∧ i < 2 ^ 63 ∧ ∃ ds : Text, ds ≠ [] ∧ (∀ c ∈ ds, '0' ≤ c ∧ c ≤ '9') ∧
    ((s = ds ∨ s = '+' :: ds) ∧ i = digitsValue ds ∨ s = '-' :: ds ∧ i = -(digitsValue ds : Int))

mutual
/-- The JavaScript value stands for the value of that type: numbers for Int, texts for Long, big integers for BigInt, byte arrays for
Coll[Byte], arrays that are not empty for other collections, arrays that begin with the text `Tuple` for tuples. -/
def JsForm {G B : Type} : Js → SType → Literal G B → Prop
  | .num n, .int, .int v => NumIs n v.toInt
  | .str s, .long, .long v => LongText s v.toInt
  | .big i, .bigInt, .bigInt v => v = i ∧ -(2 ^ 255) ≤ i ∧ i ≤ 2 ^ 255 - 1
  | .bytes b, .coll e, .collByte b' => e = .byte ∧ b' = b
  | .arr l, .coll e, .coll e' vs => e' = e ∧ l ≠ [] ∧ JsFormAll l e vs
  | .arr l, .tuple ts, .tup vs => JsFormTuple l ts vs
  | _, _, _ => False
/-- Item by item, of one type. -/
def JsFormAll {G B : Type} : List Js → SType → List (Literal G B) → Prop
  | [], _, [] => True
  | j :: l, e, v :: vs => JsForm j e v ∧ JsFormAll l e vs
  | _, _, _ => False
/-- Item by item. -/
def JsFormEach {G B : Type} : List Js → List SType → List (Literal G B) → Prop
  | [], [], [] => True
  | j :: l, t :: ts, v :: vs => JsForm j t v ∧ JsFormEach l ts vs
  | _, _, _ => False
/-- The marker and two to 255 items. -/
def JsFormTuple {G B : Type} : List Js → List SType → List (Literal G B) → Prop
  | .str s :: l, ts, vs => s = ['T', 'u', 'p', 'l', 'e'] ∧ 2 ≤ l.length ∧ l.length ≤ 255 ∧ JsFormEach l ts vs
  | _, _, _ => False
end

mutual
/-- Every number in it is an integer of 32 bits. -/
def WholeNumbers : Js → Prop
  | .num n => ∃ i : Int, -(2 ^ 31) ≤ i ∧ i < 2 ^ 31 ∧ NumIs n i
  | .arr l => WholeNumbersAll l
  | _ => True
/-- The same for all elements. -/
def WholeNumbersAll : List Js → Prop
  | [] => True
  | j :: l => WholeNumbers j ∧ WholeNumbersAll l
end

mutual
/-- The type a JavaScript value suggests: arrays go by their first element. -/
def suggested : Js → SType
  | .num _ => .int
  | .str _ => .long
  | .big _ => .bigInt
  | .bytes _ => .coll .byte
  | .arr (.str s :: l) => if s = ['T', 'u', 'p', 'l', 'e'] then .tuple (suggestedAll l) else .coll .long
  | .arr (j :: _) => .coll (suggested j)
  | _ => .any
/-- The same for all elements. -/
def suggestedAll : List Js → List SType
  | [] => []
  | j :: l => suggested j :: suggestedAll l
end

mutual
/-- Arrays that are not tuples have elements of one type. -/
def Uniform : Js → Prop
  | .arr (.str s :: l) => s = ['T', 'u', 'p', 'l', 'e'] ∧ UniformAll l ∨ s ≠ ['T', 'u', 'p', 'l', 'e']
  | .arr (j :: l) => Uniform j ∧ UniformAll l ∧ ∀ j' ∈ l, suggested j' = suggested j
  | _ => True
/-- The same for all elements. -/
def UniformAll : List Js → Prop
  | [] => True
  | j :: l => Uniform j ∧ UniformAll l
end

mutual
/-- The types of constants that have a JavaScript form which is read back: no Boolean, Byte, Short or tuple in it. -/
def JsSimple : SType → Bool
  | .int => true
  | .long => true
  | .bigInt => true
  | .coll .byte => true
  | .coll e => JsSimple e
  | _ => false
end

mutual
/-- The types of constants that can be shown as JavaScript values. -/
def JsShown : SType → Bool
  | .bool => true
  | .byte => true
  | .short => true
  | .int => true
  | .long => true
  | .bigInt => true
  | .coll e => JsShown e
  | .tuple ts => JsShownAll ts
  | _ => false
/-- The same for all items. -/
def JsShownAll : List SType → Bool
  | [] => true
  | t :: ts => JsShown t && JsShownAll ts
end

mutual
/-- No collection other than of bytes is empty. -/
def NoEmpty {G B : Type} : Literal G B → Prop
  | .coll _ l => l ≠ [] ∧ NoEmptyAll l
  | .tup l => NoEmptyAll l
  | _ => True
/-- The same for all items. -/
def NoEmptyAll {G B : Type} : List (Literal G B) → Prop
  | [] => True
  | v :: l => NoEmpty v ∧ NoEmptyAll l
end

mutual
/-- Byte arrays and arrays have at most 65535 elements. -/
def JsSmall : Js → Prop
  | .bytes b => b.length ≤ 65535
  | .arr l => l.length ≤ 65535 ∧ JsSmallAll l
  | _ => True
/-- The same for all elements. -/
def JsSmallAll : List Js → Prop
  | [] => True
  | j :: l => JsSmall j ∧ JsSmallAll l
end

end Verif.Spec
