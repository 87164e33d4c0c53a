import Verif.Model.RustConst
import Verif.Spec.Constant

/-!
# What users expect of constants made from Rust values

Stated without reference to the conversions.
-/

namespace Verif.Spec
open Verif

mutual
/-- `x` can be stored in a box: no options, at most 65535 elements in each collection, values within the bounds of their Rust types. -/
def Storable {G B : Type} (bwf : B → Prop) : (t : RTy) → t.Val G B → Prop
  | .bigInt, (n : Int) => -2 ^ 255 ≤ n ∧ n ≤ 2 ^ 255 - 1
  | .sigmaProp, p => SigmaBoolean.Bounded p
  | .avlTree, (a : AvlTreeData) => a.digest.length = 33 ∧ a.flags.toNat < 8
  | .box, b => bwf b
  | .bytes, l => List.length l ≤ 65535
  | .vec t, (l : List (t.Val G B)) => l.length ≤ 65535 ∧ ∀ x ∈ l, Storable bwf t x
  | .opt _, _ => False
  | .tup ts, x => StorableAll bwf ts x
  | _, _ => True
/-- All items can be stored. -/
def StorableAll {G B : Type} (bwf : B → Prop) : (ts : List RTy) → RTy.Vals G B ts → Prop
  | [], _ => True
  | t :: ts, x => Storable bwf t x.1 ∧ StorableAll bwf ts x.2
end

mutual
/-- A constant of the first type holds what the second type asks for: the types agree except that a tuple may be longer. -/
def TypeCovers : SType → SType → Prop
  | .coll a, .coll b => TypeCovers a b
  | .option a, .option b => TypeCovers a b
  | .tuple as, .tuple bs => TypesCover as bs
  | a, b => a = b
/-- The items of tuples. -/
def TypesCover : List SType → List SType → Prop
  | _, [] => True
  | [], _ :: _ => False
  | a :: as, b :: bs => TypeCovers a b ∧ TypesCover as bs
end

mutual
/-- No collection inside is empty (byte arrays may be). -/
def Full {G B : Type} : Literal G B → Prop
  | .coll _ items => items ≠ [] ∧ FullAll items
  | .tup items => FullAll items
  | .some v => Full v
  | _ => True
/-- No collection inside the items is empty. -/
def FullAll {G B : Type} : List (Literal G B) → Prop
  | [] => True
  | x :: l => Full x ∧ FullAll l
end

mutual
/-- The type does not mention `Digest32` (whose length is checked when it is extracted). -/
def NoDigest : RTy → Prop
  | .digest => False
  | .vec t => NoDigest t
  | .opt t => NoDigest t
  | .tup ts => NoDigests ts
  | _ => True
/-- The items of a tuple. -/
def NoDigests : List RTy → Prop
  | [] => True
  | t :: ts => NoDigest t ∧ NoDigests ts
end

end Verif.Spec
