import Verif.Proofs.Transaction
import Verif.Spec.Nesting

/-! # All nesting depths -/

namespace Verif
open Spec

variable {G T : Type} [DecidableEq G]

theorem goodSersAt (utf8 : Bytes → Bool) (pc : PointCodec G) (tc : BoxCodec T) (H : HashFn) (twf : T → Prop)
    (ht : Rto twf tc.ser tc.parse) (hn : NonExp tc.parse) :
    ∀ n, GoodSers (sersAt utf8 pc tc H n) (GoodBoxAt utf8 pc tc H twf n) twf
  | 0 => { box := fun b => b.elim, boxNE := NonExp.fail, tree := ht, treeNE := hn }
  | n + 1 =>
    have ih := goodSersAt utf8 pc tc H twf ht hn n
    { box := EBox.rt (sersAt utf8 pc tc H n) ih
      boxNE := EBox.nonExp_parse (sersAt utf8 pc tc H n) ih.boxNE hn
      tree := ht
      treeNE := hn }

theorem boxParsedAt (utf8 : Bytes → Bool) (pc : PointCodec G) (tc : BoxCodec T) (H : HashFn) (twf : T → Prop)
    (hp : Post twf tc.parse) : ∀ n, BoxParsed (sersAt utf8 pc tc H n).bc (GoodBoxAt utf8 pc tc H twf n)
  | 0 => fun s b r _ => b.elim
  | n + 1 => by
    have ih := boxParsedAt utf8 pc tc H twf hp n
    exact EBox.parsed (sersAt utf8 pc tc H n) ih hp

end Verif
