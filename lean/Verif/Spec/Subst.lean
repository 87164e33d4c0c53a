import Verif.Model.ErgoTree

/-!
# Replacing constants of a tree

Positions are integers; of several replacements for one position the last counts.
-/

namespace Verif.Spec
variable {G B : Type}

/-- The last replacement for a position. -/
def replacement (ups : List (Int × Constant G B)) (j : Nat) : Option (Constant G B) :=
  (ups.reverse.find? fun p => decide (p.1 = (j : Int))).map Prod.snd

/-- The constants after the replacements. -/
def replaceAll (ups : List (Int × Constant G B)) (C : List (Constant G B)) : List (Constant G B) :=
  C.mapIdx fun j c => (replacement ups j).getD c

/-- A replacement that is allowed: there is a constant at the position, and it has the same type. -/
def Fitting (C : List (Constant G B)) (p : Int × Constant G B) : Prop :=
  0 ≤ p.1 ∧ ∃ old, C[p.1.toNat]? = some old ∧ old.tpe = p.2.tpe

end Verif.Spec
