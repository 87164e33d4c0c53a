import Verif.Model.SType

/-!
# Which types can be written
-/

namespace Verif.Spec
open SType

mutual
/-- The invariants of the Rust types: tuples have 2..255 items, type variables 1..254 bytes of UTF-8. -/
def WfType (utf8 : Bytes → Bool) : SType → Prop
  | typeVar n => 1 ≤ n.length ∧ n.length ≤ 254 ∧ utf8 n = true
  | option e => WfType utf8 e
  | coll e => WfType utf8 e
  | tuple l => 2 ≤ l.length ∧ l.length ≤ 255 ∧ WfTypes utf8 l
  | func d r _ => WfTypes utf8 d ∧ WfType utf8 r
  | _ => True
/-- List part of `WfType`. -/
def WfTypes (utf8 : Bytes → Bool) : List SType → Prop
  | [] => True
  | t :: l => WfType utf8 t ∧ WfTypes utf8 l
end

mutual
/-- No function type inside (function types have no byte form). -/
def NoFunc : SType → Prop
  | option e => NoFunc e
  | coll e => NoFunc e
  | tuple l => NoFuncs l
  | func _ _ _ => False
  | _ => True
/-- List part of `NoFunc`. -/
def NoFuncs : List SType → Prop
  | [] => True
  | t :: l => NoFunc t ∧ NoFuncs l
end

end Verif.Spec
