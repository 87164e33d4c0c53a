import Verif.Model.Box
import Verif.Model.ErgoTree

/-!
# Boxes with ErgoTrees, nested inside constants

`ErgoBox` has an `ErgoTree` and registers; both have constants; a constant of type `SBox` has an `ErgoBox`
(`ergotree-ir/src/mir/constant.rs:76`).  Level `n` of the model has boxes nested at most `n` deep.  Simplification: the tree of an
inner box is read by a new reader (`ErgoTree.parseIn` says what a shared reader changes).
-/

namespace Verif

/-- Boxes nested at most `n` deep, `Literal::CBox`, `ergotree-ir/src/mir/constant.rs:76`. -/
def BoxL (G : Type) : Nat → Type
  | 0 => Empty
  | n + 1 => EBox G (BoxL G n) (ETree G (BoxL G n))

/-- The parameters of the tree codec (which has no trees inside, so the codec of trees is of no account), for the trees read by
`ergotree-ir/src/ergo_tree.rs:346-382`. -/
def sersBase {G B : Type} (utf8 : Bytes → Bool) (pc : PointCodec G) (H : HashFn) (bc : BoxCodec B) : Sers G B Unit where
  utf8 := utf8
  pc := pc
  bc := bc
  tc := { ser := fun _ => .err, parse := Parser.fail }
  H := H

/-- The codecs over a codec of inner boxes, for `Literal::CBox`, `ergotree-ir/src/mir/constant.rs:76`. -/
def sersOver {G B : Type} [DecidableEq G] (utf8 : Bytes → Bool) (pc : PointCodec G) (H : HashFn)
    (M : Byte → Byte → Option FuncSig) (bc : BoxCodec B) : Sers G B (ETree G B) where
  utf8 := utf8
  pc := pc
  bc := bc
  tc := ETree.codec (sersBase utf8 pc H bc) M
  H := H

/-- The codecs of level `n`, for `Literal::CBox`, `ergotree-ir/src/mir/constant.rs:76`. -/
def sersL {G : Type} [DecidableEq G] (utf8 : Bytes → Bool) (pc : PointCodec G) (H : HashFn)
    (M : Byte → Byte → Option FuncSig) : (n : Nat) → Sers G (BoxL G n) (ETree G (BoxL G n))
  | 0 => sersOver utf8 pc H M { ser := fun b => Empty.elim b, parse := Parser.fail }
  | n + 1 => sersOver utf8 pc H M (EBox.codec (sersL utf8 pc H M n))

end Verif
