import Verif.Model.BoxSelector

/-! # Totals of values and tokens (specification vocabulary for C06–C09) -/

namespace Verif.Spec

/-- Total amount of token `id` in a bag of tokens. -/
def tokTotal (id : TokenId) (ts : List Token) : Nat := ((ts.filter fun t => t.1 = id).map Prod.snd).sum

/-- Total amount of token `id` in a list of boxes. -/
def boxesTok (id : TokenId) (bs : List Assets) : Nat := tokTotal id (bs.flatMap Assets.toks)

/-- Total nanoErg value of a list of boxes. -/
def boxesValue (bs : List Assets) : Nat := (bs.map Assets.value).sum

/-- What the Rust types guarantee of a box: value in bounds, 1 to 122 tokens if any, amounts in bounds. -/
def AssetsOk (b : Assets) : Prop :=
  10800 ≤ b.value ∧ b.value ≤ 9223372036854775807 ∧
  (∀ ts, b.tokens = some ts → 1 ≤ ts.length ∧ ts.length ≤ 122) ∧
  ∀ t ∈ b.toks, 1 ≤ t.2 ∧ t.2 ≤ 9223372036854775807

end Verif.Spec
