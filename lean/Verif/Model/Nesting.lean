import Verif.Model.Transaction

/-!
# Boxes inside constants inside boxes

`Literal::CBox(Arc<ErgoBox>)` (`ergotree-ir/src/mir/constant.rs:76`) makes boxes and constants mutually recursive.  The
model takes the boxes held by constants as a parameter and unrolls the recursion: `BoxAt n` are the boxes with box
constants nested at most `n` deep, for any `n`.
-/

namespace Verif

/-- Boxes whose registers nest box constants less than `n` deep; `BoxAt 0` is empty, `Literal::CBox`, `ergotree-ir/src/mir/constant.rs:76`.
-/
def BoxAt (G T : Type) : Nat → Type
  | 0 => Empty
  | n + 1 => EBox G (BoxAt G T n) T

/-- A box codec for constants without boxes, for `Literal::CBox`, `ergotree-ir/src/mir/constant.rs:76`. -/
def emptyCodec : BoxCodec Empty := { ser := fun _ => .err, parse := Parser.fail }

/-- The codec of `BoxAt n`: `ErgoBox::sigma_serialize` / `sigma_parse` (`ergo_box.rs:196-216`) called from
`DataSerializer` (`ergotree-ir/src/serialization/data.rs`), unrolled `n` times. -/
def codecAt {G T : Type} [DecidableEq G] (utf8 : Bytes → Bool) (pc : PointCodec G) (tc : BoxCodec T) (H : HashFn) :
    (n : Nat) → BoxCodec (BoxAt G T n)
  | 0 => emptyCodec
  | n + 1 => EBox.codec { utf8 := utf8, pc := pc, bc := codecAt utf8 pc tc H n, tc := tc, H := H }

/-- The parameters for boxes and transactions with box constants nested at most `n` deep, for `Literal::CBox`,
`ergotree-ir/src/mir/constant.rs:76`. -/
def sersAt {G T : Type} [DecidableEq G] (utf8 : Bytes → Bool) (pc : PointCodec G) (tc : BoxCodec T) (H : HashFn) (n : Nat) :
    Sers G (BoxAt G T n) T :=
  { utf8 := utf8, pc := pc, bc := codecAt utf8 pc tc H n, tc := tc, H := H }

end Verif
