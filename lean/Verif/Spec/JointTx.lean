import Verif.Spec.JsonHint
import Verif.Spec.Signing

/-!
# Several wallets sign a transaction together
-/

namespace Verif.Spec
open Verif Verif.Sigma Verif.Json

section
variable {G B T : Type} {q : Nat}

/-- One of several signers of a transaction: the secrets, the random scalars of the commitments for each input, and what the prover
draws for each input. -/
structure TxSigner (G : Type) (q : Nat) where
  secrets : List (Secret G q)
  nonce : Nat → Position → ZMod q
  rnd : Nat → Rnd q

/-- The signer of one input. -/
def TxSigner.at (s : TxSigner G q) (i : Nat) : Signer G q := ⟨s.secrets, s.nonce i, s.rnd i⟩

/-- The wallet of a signer. -/
def TxSigner.wallet (C : Curve G) (s : TxSigner G q) : WalletP G q := ⟨C, s.secrets, s.rnd⟩

/-- The bag of a signer without the secret scalars, for the first `n` inputs. -/
def publicBag (n : Nat) (b : TxHints G q) : TxHints G q :=
  (List.range n).foldl (fun x i => x.addFor i (publicPart (b.allFor i))) .empty

/-- The hints of several bags for the first `n` inputs put together with `add_hints_for_input`. -/
def joinBags (n : Nat) (bs : List (TxHints G q)) : TxHints G q :=
  bs.foldl (fun acc b => (List.range n).foldl (fun x i => x.addFor i (b.allFor i)) acc) .empty

section
variable [DecidableEq G] [AddCommGroup G] [Module (ZMod q) G]

/-- The public keys of a signer. -/
def TxSigner.keys (C : Curve G) (s : TxSigner G q) : List (SigmaBoolean G) := s.secrets.map fun x => (x.image C).toSB

/-- What the signers can do about an input: nothing is needed, or all leaves of an AND proposition belong to the signers, each leaf to one. -/
def Joint (C : Curve G) (ss : List (TxSigner G q)) (sb : SigmaBoolean G) : Prop :=
  sb = .trivial true ∨ (sb.Bounded ∧ AndOnly sb ∧
    (∀ s ∈ ss, ∀ t ∈ ss, ∀ x ∈ leaves sb, x.1.toSB ∈ s.keys C → x.1.toSB ∈ t.keys C → s = t) ∧
    (∀ x ∈ leaves sb, ∃ s ∈ ss, x.1.toSB ∈ s.keys C))

variable (reduce : Reduce G B T) (C : Curve G) (E : Sers G B T) (S : StateCtx G) (u : UnsignedTransaction G B T) (c : TxBoxes G B T)
  (send : TxHints G q → Outcome (TxHints G q)) (join : List (TxHints G q) → TxHints G q)

/-- Round 1: everybody calls `generate_commitments` for their own keys and sends the public part to all. -/
def announceTx : List (TxSigner G q) → Outcome (List (TxHints G q))
  | [] => .ok []
  | s :: ss => do
    let own ← commitTx reduce C s.nonce E S u c (s.keys C)
    let pub ← send (publicBag u.inputs.length own)
    let rest ← announceTx ss
    pure (pub :: rest)

/-- Round 2: one after the other calls `sign_transaction` with their own commitments, the announced ones and the hints which the one before
extracted with `extract_hints` from the transaction, for the keys `done` that have signed by then, and sent. -/
def signTxInTurn (ann : List (TxHints G q)) : List (SigmaBoolean G) → List (TxHints G q) → List (TxSigner G q) → Outcome (Tx G B T)
  | _, _, [] => .err
  | _, ex, [s] => do
    let own ← commitTx reduce C s.nonce E S u c (s.keys C)
    signTransaction reduce (s.wallet C) E S u c (some (join (own :: (ann ++ ex))))
  | done, ex, s :: s' :: rest => do
    let own ← commitTx reduce C s.nonce E S u c (s.keys C)
    let t ← signTransaction reduce (s.wallet C) E S u c (some (join (own :: (ann ++ ex))))
    let b ← extractTx reduce C S t c (done ++ s.keys C) []
    let b ← send b
    signTxInTurn ann (done ++ s.keys C) [b] (s' :: rest)

/-- Both rounds. -/
def signTogether (ss : List (TxSigner G q)) : Outcome (Tx G B T) := do
  let ann ← announceTx reduce C E S u c send ss
  signTxInTurn reduce C E S u c send join ann [] [] ss

end

/-- A way to send bags which loses at most the commitments inside proofs. -/
def Sends (send : TxHints G q → Outcome (TxHints G q)) : Prop :=
  ∀ b, GoodBag b → ∃ b', send b = .ok b' ∧ ∀ i, ((b'.allFor i).map forgetHint).Perm ((b.allFor i).map forgetHint)

/-- A way to put bags together which loses no hint for the first `n` inputs. -/
def Joins (n : Nat) (join : List (TxHints G q) → TxHints G q) : Prop :=
  ∀ bs i, i < n → ((join bs).allFor i).Perm (bs.flatMap fun b => b.allFor i)

/-- Bags sent as JSON; `ord` is the order of the hash maps. -/
def sendJson [DecidableEq G] (pc : PointCodec G) (ord : List (Text × Json) → List (Text × Json)) (b : TxHints G q) :
    Outcome (TxHints G q) := do
  let j ← writeTxHints pc ord b
  readTxHints pc j

end
end Verif.Spec
