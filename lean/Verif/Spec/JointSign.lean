import Verif.Spec.MultiSig

/-! What it means that some of the parties named in a proposition sign it together (specification). -/

namespace Verif.Spec
open Verif Verif.Sigma

section
variable {G : Type} {q : Nat}

mutual
/-- The parties of `σ` are just enough: everywhere in the part of the proposition they prove, exactly as many children hold as the
connective asks for, and a child they leave out is a single statement. -/
def JustEnough (σ : Assignment G) : SigmaBoolean G → Prop
  | .trivial _ => False
  | .dlog h => holds σ (.dlog h) = true
  | .dht g h u v => holds σ (.dht g h u v) = true
  | .cand l => holdsCount σ l = l.length ∧ JustEnoughList σ l
  | .cor l => holdsCount σ l = 1 ∧ JustEnoughList σ l
  | .cth k l => holdsCount σ l = k.toNat ∧ JustEnoughList σ l
/-- Child by child. -/
def JustEnoughList (σ : Assignment G) : List (SigmaBoolean G) → Prop
  | [] => True
  | a :: l => (holds σ a = true ∧ JustEnough σ a ∨ holds σ a = false ∧ ∃ p : LeafProp G, a = p.toSB) ∧ JustEnoughList σ l
end

section
variable [DecidableEq G] [AddCommGroup G] [Module (ZMod q) G] (C : Curve G)

/-- The statements for which one of the signers has a secret. -/
def ownedBy (ss : List (Signer G q)) : Assignment G where
  dlog h := ss.any fun s => (s.images C).any fun i => i.beq (.dlog h)
  dht g h u v := ss.any fun s => (s.images C).any fun i => i.beq (.dht g h u v)

/-- Round 2 when some parties are absent: one after the other signs, with their own commitments, the announced ones, and the hints
extracted from the previous signature for the keys `done` that have signed by then and the keys `absent` that never will; `arrange`
is the order of the hints in the bags. -/
def signPresent (arrange : List (Hint G q) → List (Hint G q)) (sb : SigmaBoolean G) (absent : List (SigmaBoolean G)) (message : Bytes)
    (ann : List (Hint G q)) : List (SigmaBoolean G) → List (Hint G q) → List (Signer G q) → Outcome Bytes
  | _, _, [] => .err
  | _, ex, [s] => generateProof ⟨C, s.secrets, arrange (s.commitments C sb ++ ann ++ ex), s.rnd⟩ sb message
  | done, ex, s :: t :: rest => do
    let sig ← generateProof ⟨C, s.secrets, arrange (s.commitments C sb ++ ann ++ ex), s.rnd⟩ sb message
    let ex' ← bagForMultiSig C sb (done ++ s.images C) absent sig
    signPresent arrange sb absent message ann (done ++ s.images C) ex' (t :: rest)

end
end
end Verif.Spec
