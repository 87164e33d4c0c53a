import Verif.Spec.Expr
import Verif.Model.ErgoTree

/-!
# Which trees the codec is about
-/

namespace Verif.Spec
open Expr
variable {G B T : Type}

/-- A header made by `new`, `v0` or `v1` (the fields are private). -/
def GoodHeader (h : TreeHeader) : Prop := h.version.toNat ≤ 1

/-- The reader of the root of a tree with constants `C`. -/
def treeReader (C : List (Constant G B)) (M : Byte → Byte → Option FuncSig) : Reader G B :=
  { consts := C, subst := false, methods := M }

/-- A tree that can be written and read back: a known version; constants only with the segregation flag, at most 4096, well
typed; a root that is good for them.  An unparsed tree must really be one: it consists of a header with the size flag, the
size, and a body that cannot be parsed. -/
def GoodTree (E : Sers G B T) (bwf : B → Prop) (M : Byte → Byte → Option FuncSig) : ETree G B → Prop
  | .parsed h C root => GoodHeader h ∧ (h.seg = false → C = []) ∧ C.length ≤ 4096 ∧ (∀ c ∈ C, GoodConst E.utf8 bwf c) ∧
      Good E.utf8 bwf (treeReader C M) root []
  | .unparsed bytes => ∃ (h : TreeHeader) (n : BitVec 32) (body : Bytes), GoodHeader h ∧ h.hasSize = true ∧
      bytes = h.serialized :: (putU32 n ++ body) ∧ body.length = n.toNat ∧ ETree.parseBody E M h [] body = none

/-- The size field, if there is one, can hold the length of the body. -/
def FitsSize [DecidableEq G] (E : Sers G B T) : ETree G B → Prop
  | .parsed h C root => h.hasSize = true → ∀ b, ETree.serBody E h C root = .ok b → b.length < 2 ^ 32
  | .unparsed _ => True

end Verif.Spec
