import Verif.Model.HttpAnswer
import Verif.Spec.Http

/-!
# Specification of answers to queries (C108)

What a browser does with a request, in words: the head of the answer comes in time or the timer does, then the body comes or does not.
-/

namespace Verif.Spec
open Verif Verif.Http

/-- The head of an answer comes at time `t`, not after the timer. -/
def HeadAt (timer : Option Int) (b : Behaviour) (t : Nat) (js : JsResponse) : Prop :=
  b.head = some (t, some js) ∧ ∀ a, timer = some a → t < a.toNat ∨ (t = a.toNat ∧ b.tie = true)

/-- No answer and no rejection comes before the timer `a`. -/
def LateHead (a : Nat) (b : Behaviour) : Prop :=
  ∀ t r, b.head = some (t, r) → a < t ∨ (a = t ∧ b.tie = false)

/-- An answer the client can take: its URL can be parsed, the status code has three digits, and names and values of the headers are
made of the characters of headers. -/
def Wellformed (parseUrl : Text → Bool) (js : JsResponse) : Prop :=
  parseUrl js.url = true ∧ 100 ≤ js.status ∧ js.status < 1000 ∧
    ∀ p ∈ js.headers, HeaderToken p.1 ∧ NoControls p.2

/-- An opaque answer, which is what a browser gives for requests in the mode `no-cors` to another origin (Fetch standard): no URL, no
status and no headers. -/
def opaqueAnswer : JsResponse := ⟨0, [], []⟩

/-- The values of a name in the list of headers of an answer; letters of names count in both cases. -/
def answerValues (l : List (Text × Text)) (n : Text) : List Text := (l.filter fun p => p.1.map Char.toLower == n).map Prod.snd

end Verif.Spec
