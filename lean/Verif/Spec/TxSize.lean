import Verif.Model.SigmaTree

/-!
# Sizes of proofs and of signed transactions

What the byte formats say, without reference to the prover or the serializers.
-/

namespace Verif.Spec
open Verif.Sigma

mutual
/-- Bytes of the proof of a proposition without the challenge at its root: 32 for the response of a leaf; an OR states the
challenges (24 bytes) of all children but one, a `k`-of-`n` threshold the `n - k` upper coefficients (24 bytes each) of its
polynomial. -/
def responseSize {G : Type} : SigmaBoolean G → Nat
  | .trivial _ => 0
  | .dlog _ => 32
  | .dht _ _ _ _ => 32
  | .cand l => responseSizes l
  | .cor l => responseSizes l + 24 * (l.length - 1)
  | .cth k l => responseSizes l + 24 * (l.length - k.toNat)
/-- The sum over a list. -/
def responseSizes {G : Type} : List (SigmaBoolean G) → Nat
  | [] => 0
  | a :: l => responseSize a + responseSizes l
end

/-- Bytes of the proof of a proposition; none for a constant. -/
def proofSize {G : Type} : SigmaBoolean G → Nat
  | .trivial _ => 0
  | sb => 24 + responseSize sb

/-- Bytes of a length below 65536 in the variable length encoding. -/
def lengthSize (n : Nat) : Nat := if n < 128 then 1 else if n < 16384 then 2 else 3

/-- What an input with a proof of `n` bytes adds to the bytes of a transaction without proofs, where it takes one byte. -/
def proofCost (n : Nat) : Nat := lengthSize n + n - 1

end Verif.Spec
