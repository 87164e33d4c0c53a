import Verif.Model.Expr

/-!
# The table of methods

Source: `ergotree-ir/src/types/{savltree,sbox,scoll,scontext,sglobal,sgroup_elem,soption,sheader,spreheader,stype_companion,
smethod,sfunc,stype_param}.rs`.
-/

namespace Verif

namespace SType

/-- `STypeVar::t()`, `types/stype_param.rs:60-64` (the name is "T"). -/
def varT : SType := .typeVar [84]
/-- `STypeVar::iv()`, `types/stype_param.rs:66-69` (the name is "IV"). -/
def varIV : SType := .typeVar [73, 86]
/-- `STypeVar::ov()`, `types/stype_param.rs:71-74` (the name is "OV"). -/
def varOV : SType := .typeVar [79, 86]

end SType

/-- `SFunc::new` and `SMethodDesc::property`, `types/sfunc.rs:34-40`, `types/smethod.rs:108-123`: no type parameters are listed. -/
def FuncSig.plain (dom : List SType) (range : SType) : FuncSig := { dom := dom, range := range, params := [] }

/-- Methods of `AvlTree`, `types/savltree.rs:17-306`. -/
def avlTreeMethods : Nat → Option FuncSig
  | 1 => some (.plain [.avlTree] (.coll .byte))
  | 2 => some (.plain [.avlTree] .byte)
  | 3 => some (.plain [.avlTree] .int)
  | 4 => some (.plain [.avlTree] (.option .int))
  | 5 => some (.plain [.avlTree] .bool)
  | 6 => some (.plain [.avlTree] .bool)
  | 7 => some (.plain [.avlTree] .bool)
  | 8 => some (.plain [.avlTree, .byte] .avlTree)
  | 9 => some (.plain [.avlTree, .coll .byte, .coll .byte] .bool)
  | 10 => some (.plain [.avlTree, .coll .byte, .coll .byte] (.option (.coll .byte)))
  | 11 => some (.plain [.avlTree, .coll (.coll .byte), .coll .byte] (.coll (.option (.coll .byte))))
  | 12 => some (.plain [.avlTree, .coll (.tuple [.coll .byte, .coll .byte]), .coll .byte] (.option .avlTree))
  | 13 => some (.plain [.avlTree, .coll (.tuple [.coll .byte, .coll .byte]), .coll .byte] (.option .avlTree))
  | 14 => some (.plain [.avlTree, .coll (.coll .byte), .coll .byte] (.option .avlTree))
  | 15 => some (.plain [.avlTree, .coll .byte] .avlTree)
  | _ => none

/-- Methods of `Box`, `types/sbox.rs:15-77`. -/
def boxMethods : Nat → Option FuncSig
  | 1 => some (.plain [.box] .long)
  | 7 => some (.plain [.box, .byte] (.option SType.varT))
  | 8 => some (.plain [.box] (.coll (.tuple [.coll .byte, .long])))
  | _ => none

/-- Methods of `Coll`, `types/scoll.rs:14-189`. -/
def collMethods : Nat → Option FuncSig
  | 14 => some (.plain [.coll SType.varT] (.coll .int))
  | 15 => some (.plain [.coll SType.varIV, .func [SType.varIV] (.coll SType.varOV) []] (.coll SType.varOV))
  | 19 => some (.plain [.coll SType.varT, .int, .coll SType.varT, .int] (.coll SType.varT))
  | 20 => some (.plain [.coll SType.varT, .int, SType.varT] (.coll SType.varT))
  | 21 => some (.plain [.coll SType.varT, .coll .int, .coll SType.varT] (.coll SType.varT))
  | 26 => some (.plain [.coll SType.varT, SType.varT, .int] .int)
  | 29 => some (.plain [.coll SType.varT, .coll SType.varIV] (.coll (.tuple [SType.varT, SType.varIV])))
  | _ => none

/-- Methods of `Context`, `types/scontext.rs:18-155`. -/
def contextMethods : Nat → Option FuncSig
  | 1 => some (.plain [.context] (.coll .box))
  | 2 => some (.plain [.context] (.coll .header))
  | 3 => some (.plain [.context] .preHeader)
  | 4 => some (.plain [.context] (.coll .box))
  | 5 => some (.plain [.context] (.coll .box))
  | 6 => some (.plain [.context] .int)
  | 7 => some (.plain [.context] .box)
  | 8 => some (.plain [.context] .int)
  | 9 => some (.plain [.context] .avlTree)
  | 10 => some (.plain [.context] (.coll .byte))
  | _ => none

/-- Methods of `GroupElement`, `types/sgroup_elem.rs:13-55`. -/
def groupMethods : Nat → Option FuncSig
  | 2 => some (.plain [.groupElement] (.coll .byte))
  | 5 => some (.plain [.groupElement] .groupElement)
  | _ => none

/-- Methods of `Global`, `types/sglobal.rs:12-59`. -/
def globalMethods : Nat → Option FuncSig
  | 1 => some (.plain [.global] .groupElement)
  | 2 => some (.plain [.global, .coll .byte, .coll .byte] (.coll .byte))
  | _ => none

/-- Methods of `Option`, `types/soption.rs:13-67`. -/
def optionMethods : Nat → Option FuncSig
  | 7 => some (.plain [.option SType.varIV, .func [SType.varIV] SType.varOV []] (.option SType.varOV))
  | 8 => some (.plain [.option SType.varIV, .func [SType.varIV] .bool []] (.option SType.varIV))
  | _ => none

/-- Methods of `Header`, `types/sheader.rs:15-158`. -/
def headerMethods : Nat → Option FuncSig
  | 1 => some (.plain [.header] (.coll .byte))
  | 2 => some (.plain [.header] .byte)
  | 3 => some (.plain [.header] (.coll .byte))
  | 4 => some (.plain [.header] (.coll .byte))
  | 5 => some (.plain [.header] .avlTree)
  | 6 => some (.plain [.header] (.coll .byte))
  | 7 => some (.plain [.header] .long)
  | 8 => some (.plain [.header] .long)
  | 9 => some (.plain [.header] .int)
  | 10 => some (.plain [.header] (.coll .byte))
  | 11 => some (.plain [.header] .groupElement)
  | 12 => some (.plain [.header] .groupElement)
  | 13 => some (.plain [.header] (.coll .byte))
  | 14 => some (.plain [.header] .bigInt)
  | 15 => some (.plain [.header] (.coll .byte))
  | _ => none

/-- Methods of `PreHeader`, `types/spreheader.rs:15-92`. -/
def preHeaderMethods : Nat → Option FuncSig
  | 1 => some (.plain [.preHeader] .byte)
  | 2 => some (.plain [.preHeader] (.coll .byte))
  | 3 => some (.plain [.preHeader] .long)
  | 4 => some (.plain [.preHeader] .long)
  | 5 => some (.plain [.preHeader] .int)
  | 6 => some (.plain [.preHeader] .groupElement)
  | 7 => some (.plain [.preHeader] (.coll .byte))
  | _ => none

/-- `SMethod::from_ids`, `types/smethod.rs:48-57`, with `STypeCompanion::type_by_id` and `method_by_id`,
`types/stype_companion.rs:45-120`. -/
def methodTable (typeId methodId : Byte) : Option FuncSig :=
  match typeId.toNat with
  | 7 => groupMethods methodId.toNat
  | 12 => collMethods methodId.toNat
  | 36 => optionMethods methodId.toNat
  | 99 => boxMethods methodId.toNat
  | 100 => avlTreeMethods methodId.toNat
  | 101 => contextMethods methodId.toNat
  | 104 => headerMethods methodId.toNat
  | 105 => preHeaderMethods methodId.toNat
  | 106 => globalMethods methodId.toNat
  | _ => none

end Verif
