import Verif.Model.Discovery

/-!
# What is meant by a search for peers

In terms of what happened: which nodes were asked, what they answered.
-/

namespace Verif.Spec.Discovery
open Verif.Discovery

variable {U : Type}

/-- The nodes that were asked, in order and with repetitions. -/
def asked (tr : List (Ev U)) : List U := tr.filterMap fun e => match e with | .ask u => some u | _ => none

/-- The number of tasks under way whose requests were started and not yet answered. -/
def outstanding (tr : List (Ev U)) : Int :=
  (asked tr).length - (tr.filter fun e => match e with | .answer _ _ => true | .die _ => true | _ => false).length

/-- The answers in an execution are those of a network: for every node none, or the list of its peers. -/
def Follows (net : U → Option (List U)) (tr : List (Ev U)) : Prop := ∀ u r, Ev.answer u r ∈ tr → r = net u

/-- Nodes that can be found from the seeds by asking active nodes. -/
inductive Reach (net : U → Option (List U)) (seeds : List U) : U → Prop
  | seed {u} : u ∈ seeds → Reach net seeds u
  | peer {u p ps} : Reach net seeds u → net u = some ps → p ∈ ps → Reach net seeds p

end Verif.Spec.Discovery
