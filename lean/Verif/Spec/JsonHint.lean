import Verif.Spec.MultiSig
import Verif.Spec.SigmaProtocol
import Verif.Model.JsonHint

/-!
# Which hints the JSON forms are about
-/

namespace Verif.Spec
open Verif Verif.Sigma Verif.Json

section
variable {G : Type} {q : Nat}

/-- A position of a node: not empty (the root has one entry), child numbers of machine size. -/
def GoodPos (pos : Position) : Prop := pos ≠ [] ∧ ∀ n ∈ pos, n < 2 ^ 64

/-- A hint about a proposition of the library; a proof is one for the proposition. -/
def GoodHint : Hint G q → Prop
  | .realProof i _ t pos => i.Bounded ∧ Consistent i t ∧ GoodPos pos
  | .simulatedProof i _ t pos => i.Bounded ∧ Consistent i t ∧ GoodPos pos
  | .ownCommitment i _ _ pos => i.Bounded ∧ GoodPos pos
  | .realCommitment i _ pos => i.Bounded ∧ GoodPos pos
  | .simulatedCommitment i _ pos => i.Bounded ∧ GoodPos pos

/-- The hint with the commitments removed from its proof tree. -/
def forgetHint : Hint G q → Hint G q
  | .realProof i e t pos => .realProof i e (clearCommitments t) pos
  | .simulatedProof i e t pos => .simulatedProof i e (clearCommitments t) pos
  | h => h

mutual
/-- No threshold asks for more children than it has. -/
def ThresholdsFit : SigmaBoolean G → Prop
  | .trivial _ => True
  | .dlog _ => True
  | .dht _ _ _ _ => True
  | .cand l => ThresholdsFitList l
  | .cor l => ThresholdsFitList l
  | .cth k l => k.toNat ≤ l.length ∧ ThresholdsFitList l
/-- Child by child. -/
def ThresholdsFitList : List (SigmaBoolean G) → Prop
  | [] => True
  | a :: l => ThresholdsFit a ∧ ThresholdsFitList l
end

/-- A bag for distinct inputs, with good hints. -/
structure GoodBag (b : TxHints G q) : Prop where
  secretKeys : b.secretHints.Ok
  publicKeys : b.publicHints.Ok
  secretIndex : ∀ p ∈ b.secretHints, p.1 < 2 ^ 64
  publicIndex : ∀ p ∈ b.publicHints, p.1 < 2 ^ 64
  secretHints : ∀ p ∈ b.secretHints, ∀ h ∈ p.2, GoodHint h
  publicHints : ∀ p ∈ b.publicHints, ∀ h ∈ p.2, GoodHint h

section
variable [DecidableEq G]

/-- Hints sent as JSON to another party. -/
def viaJson (pc : PointCodec G) (hs : List (Hint G q)) : Outcome (List (Hint G q)) := do
  let js ← writeMany (writeHint pc) hs
  readArr (readHint pc) (.arr js)

variable [AddCommGroup G] [Module (ZMod q) G] (C : Curve G)

/-- `signInTurn` with every bag of hints, of the others as well as the signer's own, sent as JSON. -/
def signInTurnJson (arrange : List (Hint G q) → List (Hint G q)) (sb : SigmaBoolean G) (message : Bytes) (ann : List (Hint G q)) :
    List (SigmaBoolean G) → List (Hint G q) → List (Signer G q) → Outcome Bytes
  | _, _, [] => .err
  | _, ex, [s] => do
    let hs ← viaJson C.codec (arrange (s.commitments C sb ++ ann ++ ex))
    generateProof ⟨C, s.secrets, hs, s.rnd⟩ sb message
  | done, ex, s :: t :: rest => do
    let hs ← viaJson C.codec (arrange (s.commitments C sb ++ ann ++ ex))
    let sig ← generateProof ⟨C, s.secrets, hs, s.rnd⟩ sb message
    let ex' ← bagForMultiSig C sb (done ++ s.images C) [] sig
    signInTurnJson arrange sb message ann (done ++ s.images C) ex' (t :: rest)

end
end
end Verif.Spec
