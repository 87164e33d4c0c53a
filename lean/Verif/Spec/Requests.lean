import Verif.Model.Requests

/-!
# Specification of requests (C110)

What the caller of a request can see: the calls of the two functions given with it.
-/

namespace Verif
namespace Spec.Requests
open Verif.Requests

variable {α : Type}

/-- A call of the completion function. -/
def Completes : Ev α → Bool
  | .completion .. => true
  | .abort _ => false

/-- The number of calls of the completion function. -/
def completions (l : List (Ev α)) : Nat := l.countP Completes

/-- The number of calls of the abort function. -/
def aborts (l : List (Ev α)) : Nat := l.countP (fun e => !Completes e)

/-- The call says what the query gave: a value and no error, or no value and the error. -/
inductive Says (u : Nat) : Answer α → Ev α → Prop
  | ok (a : α) : Says u (.ok a) (.completion u (some a) none)
  | nothing : Says u .nothing (.completion u none (some (.misc "No merkle proof")))
  | err (e : CApi.CErr) : Says u (.err e) (.completion u none (some e))

/-- An action of a caller that aborts. -/
def Aborts : Act α → Bool
  | .abortFlag => true
  | .abortCall => true
  | _ => false

/-- A request that was just started with the data `u`. -/
def Fresh (u : Nat) (r : Req α) : Prop :=
  r.cb.user = u ∧ r.phase = .waiting ∧ r.flag = false ∧ r.aborting = 0 ∧ r.handle = true ∧ r.log = []

/-- All pointers a query needs are there, the seeds are URLs. -/
def Good (isUrl : Text → Bool) : Query → Prop
  | .info rt conf => rt ≠ none ∧ conf ≠ none
  | .header rt conf id => rt ≠ none ∧ conf ≠ none ∧ id ≠ none
  | .proof rt conf id tx => rt ≠ none ∧ conf ≠ none ∧ id ≠ none ∧ tx ≠ none
  | .nipopow rt conf id => rt ≠ none ∧ conf ≠ none ∧ id ≠ none
  | .peers rt seeds n par =>
    rt ≠ none ∧ 0 < n ∧ 0 < par ∧ ∃ l, seeds = some l ∧ n ≤ l.length ∧ ∀ s ∈ l.take n, ∃ t, s = some t ∧ isUrl t = true

/-- The array of seeds has the length it is said to have. -/
def Sized : Query → Prop
  | .peers _ (some l) n _ => n ≤ l.length
  | _ => True

end Spec.Requests
end Verif
