import Verif.Proofs.FixVlq
import Verif.Proofs.SType
import Verif.Proofs.SigmaBoolean
import Verif.Proofs.Constant

set_option linter.unusedVariables false

/-! Readers never lengthen the stream: automation, and the readers of constants. -/

namespace Verif

theorem NonExp.getI8 : NonExp getI8 := NonExp.getU8
theorem NonExp.getI16 : NonExp getI16 :=
  NonExp.bind NonExp.getU64 (fun _ => NonExp.ite (NonExp.pure _) NonExp.fail)
theorem NonExp.getI32 : NonExp getI32 := NonExp.bind NonExp.getU64 (fun _ => NonExp.pure _)
theorem NonExp.getI64 : NonExp getI64 := NonExp.bind NonExp.getU64 (fun _ => NonExp.pure _)
theorem NonExp.getBits (n : Nat) : NonExp (getBits n) := NonExp.bind (NonExp.readExact _) (fun _ => NonExp.pure _)
theorem NonExp.getOptBox {α : Type} {p : Parser α} (h : NonExp p) : NonExp (getOptBox p) :=
  NonExp.bind NonExp.getU8 (fun _ => NonExp.ite (NonExp.bind h fun _ => NonExp.pure _) (NonExp.pure _))
theorem NonExp.getVec {α : Type} {p : Parser α} (h : NonExp p) : NonExp (getVec p) :=
  NonExp.bind NonExp.getU32 (fun _ => NonExp.replicateP h _)
theorem NonExp.getU32Be : NonExp getU32Be :=
  NonExp.bind NonExp.getU8 fun _ => NonExp.bind NonExp.getU8 fun _ => NonExp.bind NonExp.getU8 fun _ =>
    NonExp.bind NonExp.getU8 fun _ => NonExp.pure _

theorem NonExp.sigma {G : Type} (pc : PointCodec G) : NonExp (SigmaBoolean.parse pc) :=
  fixP_nonExp (SigmaBoolean.productive_parseBody pc)

/-- Show that a reader composed of known ones never lengthens the stream. -/
macro "nonexp" : tactic => `(tactic| repeat' first
  | assumption
  | exact NonExp.pure _
  | exact NonExp.fail
  | exact NonExp.ofOption _
  | exact NonExp.getU8
  | exact NonExp.getI8
  | exact NonExp.getU16
  | exact NonExp.getU32
  | exact NonExp.getU64
  | exact NonExp.getI16
  | exact NonExp.getI32
  | exact NonExp.getI64
  | exact NonExp.getU32Be
  | exact NonExp.readExact _
  | exact NonExp.getBits _
  | exact NonExp.getPoint _
  | exact NonExp.sigma _
  | exact SType.nonExp_parse _
  | refine NonExp.getOptBox ?_
  | refine NonExp.getVec ?_
  | refine NonExp.replicateP ?_ _
  | refine NonExp.bind ?_ (fun _ => ?_)
  | refine NonExp.ite ?_ ?_
  | split)

/-- Show that two readers that differ only in the recursive call agree on shorter streams. -/
macro "agree" : tactic => `(tactic| repeat' first
  | assumption
  | exact AgreeLt.rfl
  | refine AgreeLt.replicateP (by nonexp) ?_ _
  | refine AgreeLt.bind (by nonexp) ?_ (fun _ => ?_)
  | refine AgreeLt.ite ?_ ?_)

theorem NonExp.getAvl : NonExp getAvl := by unfold Verif.getAvl; nonexp

mutual
theorem Literal.nonExp_parse {G B : Type} (pc : PointCodec G) (bc : BoxCodec B) (hb : NonExp bc.parse) :
    ∀ t, NonExp (Literal.parse pc bc t)
  | .bool => by rw [Literal.parse]; nonexp
  | .byte => by rw [Literal.parse]; nonexp
  | .short => by rw [Literal.parse]; nonexp
  | .int => by rw [Literal.parse]; nonexp
  | .long => by rw [Literal.parse]; nonexp
  | .bigInt => by rw [Literal.parse]; unfold Literal.parseBig; nonexp
  | .unit => by rw [Literal.parse]; nonexp
  | .groupElement => by rw [Literal.parse]; nonexp
  | .sigmaProp => by rw [Literal.parse]; nonexp
  | .coll e => by
    have ih := Literal.nonExp_parse pc bc hb e
    by_cases h1 : e = .byte
    · subst h1; rw [Literal.parse]; nonexp
    · by_cases h2 : e = .bool
      · subst h2; rw [Literal.parse]; nonexp
      · rw [Literal.parse_coll_other pc bc e h1 h2]; nonexp
  | .tuple ts => by
    have ih := Literal.nonExp_parseAll pc bc hb ts
    rw [Literal.parse]; nonexp
  | .box => by rw [Literal.parse]; nonexp
  | .avlTree => by
    have := NonExp.getAvl
    rw [Literal.parse]; nonexp
  | .typeVar _ => by rw [Literal.parse]; nonexp
  | .any => by rw [Literal.parse]; nonexp
  | .option _ => by rw [Literal.parse]; nonexp
  | .func _ _ _ => by rw [Literal.parse]; nonexp
  | .context => by rw [Literal.parse]; nonexp
  | .header => by rw [Literal.parse]; nonexp
  | .preHeader => by rw [Literal.parse]; nonexp
  | .global => by rw [Literal.parse]; nonexp
theorem Literal.nonExp_parseAll {G B : Type} (pc : PointCodec G) (bc : BoxCodec B) (hb : NonExp bc.parse) :
    ∀ ts, NonExp (Literal.parseAll pc bc ts)
  | [] => by rw [Literal.parseAll]; nonexp
  | t :: ts => by
    have h1 := Literal.nonExp_parse pc bc hb t
    have h2 := Literal.nonExp_parseAll pc bc hb ts
    rw [Literal.parseAll]; nonexp
end

theorem Constant.nonExp_parseCode {G B : Type} (utf8 : Bytes → Bool) (pc : PointCodec G) (bc : BoxCodec B)
    (hb : NonExp bc.parse) (c : Byte) : NonExp (Constant.parseCode utf8 pc bc c) := by
  unfold Constant.parseCode
  refine NonExp.bind (SType.nonExp_parseCode utf8 (SType.nonExp_parse utf8) c) (fun t => ?_)
  have := Literal.nonExp_parse pc bc hb t
  nonexp

theorem Constant.nonExp_parse {G B : Type} (utf8 : Bytes → Bool) (pc : PointCodec G) (bc : BoxCodec B)
    (hb : NonExp bc.parse) : NonExp (Constant.parse utf8 pc bc) := by
  unfold Constant.parse
  have := Constant.nonExp_parseCode utf8 pc bc hb
  exact NonExp.bind NonExp.getU8 this

end Verif
