import Verif.Model.SigmaBoolean

/-!
# Meaning of sigma propositions (specification)

An assignment says which elementary statements are provable; a proposition is provable when the boolean formula it
spells out is.
-/

namespace Verif.Spec
open Verif

/-- Which elementary statements are provable. -/
structure Assignment (G : Type) where
  dlog : G → Bool
  dht : G → G → G → G → Bool

mutual
/-- Provability of a proposition. -/
def holds {G : Type} (σ : Assignment G) : SigmaBoolean G → Bool
  | .trivial b => b
  | .dlog h => σ.dlog h
  | .dht g h u v => σ.dht g h u v
  | .cand l => holdsCount σ l == l.length
  | .cor l => holdsCount σ l != 0
  | .cth k l => decide (k.toNat ≤ holdsCount σ l)
/-- Number of provable propositions in a list. -/
def holdsCount {G : Type} (σ : Assignment G) : List (SigmaBoolean G) → Nat
  | [] => 0
  | a :: l => (if holds σ a then 1 else 0) + holdsCount σ l
end

/-- Not the constant true or false. -/
def nontrivial {G : Type} : SigmaBoolean G → Prop
  | .trivial _ => False
  | _ => True

/-- No child of the root is a constant. -/
def noTrivialChild {G : Type} : SigmaBoolean G → Prop
  | .cand l => ∀ c ∈ l, nontrivial c
  | .cor l => ∀ c ∈ l, nontrivial c
  | .cth _ l => ∀ c ∈ l, nontrivial c
  | _ => True

end Verif.Spec
