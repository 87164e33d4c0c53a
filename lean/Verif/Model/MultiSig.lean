import Verif.Model.Prover
import Verif.Model.FMap

/-!
# Hints of several signers

Source: `ergo-lib/src/wallet/multi_sig.rs`, `ergotree-interpreter/src/sigma_protocol/prover/hint.rs`.

A `HintsBag` (`hint.rs:219-230`) is the list of its hints.
-/

namespace Verif.Sigma
open Verif

section
variable {G : Type} {q : Nat}

/-- `matches!(hint, Hint::CommitmentHint(_))`, `multi_sig.rs:74, 92`. -/
def Hint.isCommitment : Hint G q → Bool
  | .realProof _ _ _ _ => false
  | .simulatedProof _ _ _ _ => false
  | .ownCommitment _ _ _ _ => true
  | .realCommitment _ _ _ => true
  | .simulatedCommitment _ _ _ => true

/-- `matches!(hint, Hint::SecretProven(_))`, `multi_sig.rs:79, 97`. -/
def Hint.isProven : Hint G q → Bool
  | .realProof _ _ _ _ => true
  | .simulatedProof _ _ _ _ => true
  | .ownCommitment _ _ _ _ => false
  | .realCommitment _ _ _ => false
  | .simulatedCommitment _ _ _ => false

/-- `TransactionHintsBag`, `multi_sig.rs:42-57`; the hash maps are finite maps. -/
structure TxHints (G : Type) (q : Nat) where
  secretHints : FMap Nat (List (Hint G q))
  publicHints : FMap Nat (List (Hint G q))

namespace TxHints

/-- `TransactionHintsBag::empty`, `multi_sig.rs:61-66`. -/
def empty : TxHints G q := ⟨[], []⟩

/-- `replace_hints_for_input`, `multi_sig.rs:69-84`. -/
def replaceFor (b : TxHints G q) (i : Nat) (hs : List (Hint G q)) : TxHints G q :=
  ⟨b.secretHints.insert i (hs.filter Hint.isProven), b.publicHints.insert i (hs.filter Hint.isCommitment)⟩

/-- `add_hints_for_input`, `multi_sig.rs:87-112`: the new hints come before the old ones. -/
def addFor (b : TxHints G q) (i : Nat) (hs : List (Hint G q)) : TxHints G q :=
  ⟨b.secretHints.insert i (hs.filter Hint.isProven ++ (b.secretHints.get i).getD []),
   b.publicHints.insert i (hs.filter Hint.isCommitment ++ (b.publicHints.get i).getD [])⟩

/-- `all_hints_for_input`, `multi_sig.rs:115-129`. -/
def allFor (b : TxHints G q) (i : Nat) : List (Hint G q) :=
  (b.secretHints.get i).getD [] ++ (b.publicHints.get i).getD []

end TxHints

section
variable [DecidableEq G]

mutual
/-- `traverse_node` in `bag_for_multi_sig`, `multi_sig.rs:146-223`: the hints added to the bag, in order. -/
def bagNode (real sim : List (SigmaBoolean G)) : Unchecked G q → Position → Outcome (List (Hint G q))
  | .leaf p m e z, pos =>
    match m with
    | none => .err
    | some m =>
      if real.any (fun i => i.beq p.toSB) then
        .ok [.realCommitment p.toSB m pos, .realProof p.toSB e (.leaf p (some m) e z) pos]
      else if sim.any (fun i => i.beq p.toSB) then
        .ok [.simulatedCommitment p.toSB m pos, .simulatedProof p.toSB e (.leaf p (some m) e z) pos]
      else .ok []
  | .conj _ _ cs, pos => bagNodes real sim cs pos 0
/-- `items.iter().enumerate().try_for_each(…)`, lines 154-170; `position.child(i)` is `pos ++ [i]`,
`ergo-lib/src/wallet/multi_sig.rs:154-170`. -/
def bagNodes (real sim : List (SigmaBoolean G)) : List (Unchecked G q) → Position → Nat → Outcome (List (Hint G q))
  | [], _, _ => .ok []
  | c :: cs, pos, i => do
    let a ← bagNode real sim c (pos ++ [i])
    let b ← bagNodes real sim cs pos (i + 1)
    pure (a ++ b)
end

variable [AddCommGroup G] [Module (ZMod q) G]

/-- `bag_for_multi_sig`, `multi_sig.rs:135-235`. -/
def bagForMultiSig (C : Curve G) (sb : SigmaBoolean G) (real sim : List (SigmaBoolean G)) (proof : Bytes) :
    Outcome (List (Hint G q)) :=
  match sb with
  | .trivial _ => .ok []
  | sb => do
    let t ← parseSigComputeChallenges sb proof
    bagNode real sim (computeCommitments C t) cryptoTreePrefix

/-- The two hints made for a leaf, `multi_sig.rs:336-352, 353-370`; `r` is the random scalar of `first_message`. -/
def leafCommitments (C : Curve G) (p : LeafProp G) (r : ZMod q) (pos : Position) : List (Hint G q) :=
  [.realCommitment p.toSB (firstMessage C p r) pos, .ownCommitment p.toSB r (firstMessage C p r) pos]

mutual
/-- `traverse_node` in `generate_commitments_for`, `multi_sig.rs:310-375`; `r` gives the random scalar drawn at a position. -/
def commitNode (C : Curve G) (r : Position → ZMod q) (genFor : List (SigmaBoolean G)) :
    SigmaBoolean G → Position → List (Hint G q)
  | .trivial _, _ => []
  | .dlog h, pos => if genFor.any (fun i => i.beq (.dlog h)) then leafCommitments C (.dlog h) (r pos) pos else []
  | .dht g h u v, pos =>
    if genFor.any (fun i => i.beq (.dht g h u v)) then leafCommitments C (.dht g h u v) (r pos) pos else []
  | .cand l, pos => commitNodes C r genFor l pos 0
  | .cor l, pos => commitNodes C r genFor l pos 0
  | .cth _ l, pos => commitNodes C r genFor l pos 0
/-- The loops at lines 318-332, `ergo-lib/src/wallet/multi_sig.rs:318-332`. -/
def commitNodes (C : Curve G) (r : Position → ZMod q) (genFor : List (SigmaBoolean G)) :
    List (SigmaBoolean G) → Position → Nat → List (Hint G q)
  | [], _, _ => []
  | c :: cs, pos, i => commitNode C r genFor c (pos ++ [i]) ++ commitNodes C r genFor cs pos (i + 1)
end

/-- `generate_commitments_for`, `multi_sig.rs:306-384`. -/
def generateCommitmentsFor (C : Curve G) (r : Position → ZMod q) (sb : SigmaBoolean G) (genFor : List (SigmaBoolean G)) :
    List (Hint G q) := commitNode C r genFor sb cryptoTreePrefix

/-- The loop of `generate_commitments`, `multi_sig.rs:242-267`, from input `i` on.  Simplification: the reduction of the scripts is
done before (a failing one makes the whole call fail in both); `r` gives the random scalars per input. -/
def generateCommitments (C : Curve G) (r : Nat → Position → ZMod q) (keys : List (SigmaBoolean G)) :
    List (SigmaBoolean G) → Nat → TxHints G q → TxHints G q
  | [], _, b => b
  | sb :: rest, i, b => generateCommitments C r keys rest (i + 1) (b.addFor i (generateCommitmentsFor C (r i) sb keys))

/-- The loop of `extract_hints`, `multi_sig.rs:270-301`, from input `i` on; each input is its reduced script and its proof. -/
def extractHints (C : Curve G) (real sim : List (SigmaBoolean G)) :
    List (SigmaBoolean G × Bytes) → Nat → TxHints G q → Outcome (TxHints G q)
  | [], _, b => .ok b
  | (sb, proof) :: rest, i, b => do
    let hs ← bagForMultiSig C sb real sim proof
    extractHints C real sim rest (i + 1) (b.addFor i hs)

end
end
end Verif.Sigma
