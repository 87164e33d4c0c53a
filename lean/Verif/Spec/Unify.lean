import Verif.Model.SType

/-!
# What unification is about
-/

namespace Verif.Spec
open SType

mutual
/-- A value of type `t` may be used where the pattern `p` is expected: equal types, except that the pattern `Any` takes
everything, `Coll[Any]` takes a tuple, and `Boolean` takes `SigmaProp`. -/
def Accepts : SType → SType → Prop
  | .any, _ => True
  | .bool, t => t = .bool ∨ t = .sigmaProp
  | .coll p, t => match t with
    | .coll e => Accepts p e
    | .tuple _ => p = .any
    | _ => False
  | .option p, t => match t with
    | .option e => Accepts p e
    | _ => False
  | .tuple ps, t => match t with
    | .tuple ts => AcceptsAll ps ts
    | _ => False
  | .func pd pr _, t => match t with
    | .func d r _ => AcceptsAll pd d ∧ Accepts pr r
    | _ => False
  | p, t => p = t
/-- Item by item. -/
def AcceptsAll : List SType → List SType → Prop
  | [], [] => True
  | p :: ps, t :: ts => Accepts p t ∧ AcceptsAll ps ts
  | _, _ => False
end

mutual
/-- No type variable inside. -/
def Ground : SType → Prop
  | .typeVar _ => False
  | .option t => Ground t
  | .coll t => Ground t
  | .tuple l => Grounds l
  | .func d r _ => Grounds d ∧ Ground r
  | _ => True
/-- List part of `Ground`. -/
def Grounds : List SType → Prop
  | [] => True
  | t :: l => Ground t ∧ Grounds l
end

mutual
/-- No unit type inside. -/
def NoUnit : SType → Prop
  | .unit => False
  | .option t => NoUnit t
  | .coll t => NoUnit t
  | .tuple l => NoUnits l
  | .func d r _ => NoUnits d ∧ NoUnit r
  | _ => True
/-- List part of `NoUnit`. -/
def NoUnits : List SType → Prop
  | [] => True
  | t :: l => NoUnit t ∧ NoUnits l
end

mutual
/-- The type variables inside. -/
def vars : SType → List Bytes
  | .typeVar n => [n]
  | .option t => vars t
  | .coll t => vars t
  | .tuple l => varsAll l
  | .func d r _ => varsAll d ++ vars r
  | _ => []
/-- List part of `vars`. -/
def varsAll : List SType → List Bytes
  | [] => []
  | t :: l => vars t ++ varsAll l
end

end Verif.Spec
