import Verif.Model.Chrome
import Verif.Spec.Discovery

/-!
# What is meant by a scan for peers with Chrome

In terms of what happened: which requests were made, what came of them.
-/

namespace Verif.Spec.Chrome
open Verif.Chrome

variable {U : Type}

/-- The requests that were made, in order and with repetitions. -/
def asked (tr : List (Ev U)) : List (Req U) := tr.filterMap fun e => match e with | .ask r => some r | _ => none

/-- The number of requests under way. -/
def outstanding (tr : List (Ev U)) : Int :=
  (asked tr).length - (tr.filter fun e => match e with | .answer _ _ => true | .die _ => true | _ => false).length

/-- The preflights that Chrome still holds on to: those of the aborted requests whose 80 seconds are not over. -/
def preflights (tr : List (Ev U)) : Int :=
  (tr.filter fun e => match e with | .answer _ .abort => true | _ => false).length
  - (tr.filter fun e => match e with | .post .preflight => true | _ => false).length

/-- The answers in an execution are those of a network: for every node none (it fails at `/info` or at `/peers/all`, in whatever way), or
the list of its peers. -/
def Follows (net : U → Option (List U)) (tr : List (Ev U)) : Prop :=
  (∀ u a, Ev.answer (.info u) a ∈ tr → net u ≠ none → ∃ ps, a = .ok ps) ∧
  ∀ u a, Ev.answer (.all u) a ∈ tr → match net u with | some ps => a = .ok ps | none => ∀ ps, a ≠ .ok ps

/-- The calls in an execution. -/
def calls (tr : List (Ev U)) : List (Req U) := tr.filterMap fun e => match e with | .call _ r => some r | _ => none

end Verif.Spec.Chrome
