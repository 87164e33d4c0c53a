import Verif.Props.Header
import Verif.Model.EvalOps

set_option linter.unusedSimpArgs false
set_option linter.unusedVariables false

/-!
# C34 – what scripts see of a header and of its pre-header
-/

namespace Verif
open Spec

variable {G B T : Type} [DecidableEq G] [DecidableEq B] [DecidableEq (Value G B)]

/-- C34: the pre-header made of a header shows scripts what the header shows: version, parent, timestamp, difficulty, height, miner key
and votes (pairs of the property of `Header` and the one of `PreHeader`). -/
theorem C34_preheader (W : World G B T) (C : EvalCtx G B) (h : Header G) :
    ∀ p ∈ [(2, 1), (3, 2), (7, 3), (8, 4), (9, 5), (11, 6), (15, 7)],
      ∃ v, Value.pureMethod W C 104 p.1 (.header h) [] = .ok v ∧
        Value.pureMethod W C 105 p.2 (.preHeader (PreHeader.ofHeader h)) [] = .ok v := by
  intro p hp
  simp only [List.mem_cons, List.not_mem_nil, or_false] at hp
  rcases hp with rfl | rfl | rfl | rfl | rfl | rfl | rfl <;> exact ⟨_, rfl, rfl⟩

end Verif
