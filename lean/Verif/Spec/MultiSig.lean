import Verif.Model.MultiSig
import Verif.Spec.SigmaProtocol

/-! What signing by several parties means (specification). -/

namespace Verif.Spec
open Verif Verif.Sigma

section
variable {G : Type} {q : Nat}

mutual
/-- Only AND over leaves: everybody named in the proposition has to sign. -/
def AndOnly : SigmaBoolean G → Prop
  | .dlog _ => True
  | .dht _ _ _ _ => True
  | .cand l => AndOnlyList l
  | _ => False
/-- Child by child. -/
def AndOnlyList : List (SigmaBoolean G) → Prop
  | [] => True
  | a :: l => AndOnly a ∧ AndOnlyList l
end

mutual
/-- The leaves of a proposition with their positions, from left to right. -/
def leavesAt : SigmaBoolean G → Position → List (LeafProp G × Position)
  | .trivial _, _ => []
  | .dlog h, pos => [(.dlog h, pos)]
  | .dht g h u v, pos => [(.dht g h u v, pos)]
  | .cand l, pos => leavesAtList l pos 0
  | .cor l, pos => leavesAtList l pos 0
  | .cth _ l, pos => leavesAtList l pos 0
/-- Children are numbered from `i` on. -/
def leavesAtList : List (SigmaBoolean G) → Position → Nat → List (LeafProp G × Position)
  | [], _, _ => []
  | a :: l, pos, i => leavesAt a (pos ++ [i]) ++ leavesAtList l pos (i + 1)
end

/-- The leaves of a whole proposition. -/
def leaves (sb : SigmaBoolean G) : List (LeafProp G × Position) := leavesAt sb cryptoTreePrefix

/-- One of several signers: the secrets, the random scalars of the commitments, and what the prover draws. -/
structure Signer (G : Type) (q : Nat) where
  secrets : List (Secret G q)
  nonce : Position → ZMod q
  rnd : Rnd q

/-- What a signer may show to the others. -/
def publicPart (hs : List (Hint G q)) : List (Hint G q) :=
  hs.filter fun
    | .ownCommitment _ _ _ _ => false
    | _ => true

section
variable [DecidableEq G] [AddCommGroup G] [Module (ZMod q) G] (C : Curve G)

/-- The public keys of a signer. -/
def Signer.images (s : Signer G q) : List (SigmaBoolean G) := s.secrets.map fun x => (x.image C).toSB

/-- Round 1: everybody makes commitments for their own keys. -/
def Signer.commitments (sb : SigmaBoolean G) (s : Signer G q) : List (Hint G q) :=
  generateCommitmentsFor C s.nonce sb (s.images C)

/-- … and announces the public part. -/
def announced (sb : SigmaBoolean G) (ss : List (Signer G q)) : List (Hint G q) :=
  ss.flatMap fun s => publicPart (s.commitments C sb)

/-- Round 2: one after the other signs, with their own commitments, the announced ones, and the hints extracted from the previous
signature for the keys `done` that have signed by then; `arrange` is the order of the hints in the bags. -/
def signInTurn (arrange : List (Hint G q) → List (Hint G q)) (sb : SigmaBoolean G) (message : Bytes) (ann : List (Hint G q)) :
    List (SigmaBoolean G) → List (Hint G q) → List (Signer G q) → Outcome Bytes
  | _, _, [] => .err
  | _, ex, [s] => generateProof ⟨C, s.secrets, arrange (s.commitments C sb ++ ann ++ ex), s.rnd⟩ sb message
  | done, ex, s :: t :: rest => do
    let sig ← generateProof ⟨C, s.secrets, arrange (s.commitments C sb ++ ann ++ ex), s.rnd⟩ sb message
    let ex' ← bagForMultiSig C sb (done ++ s.images C) [] sig
    signInTurn arrange sb message ann (done ++ s.images C) ex' (t :: rest)

end
end
end Verif.Spec
