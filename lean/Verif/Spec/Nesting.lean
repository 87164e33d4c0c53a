import Verif.Spec.Box
import Verif.Model.Nesting

/-! # Good boxes, at every nesting depth -/

namespace Verif.Spec

/-- Good boxes whose registers hold only good boxes, and so on. -/
def GoodBoxAt {G T : Type} [DecidableEq G] (utf8 : Bytes → Bool) (pc : PointCodec G) (tc : BoxCodec T) (H : HashFn)
    (twf : T → Prop) : (n : Nat) → BoxAt G T n → Prop
  | 0 => fun _ => True
  | n + 1 => GoodBox (sersAt utf8 pc tc H n) (GoodBoxAt utf8 pc tc H twf n) twf

end Verif.Spec
