import Verif.Model.Header

/-!
# Which headers the codec is about
-/

namespace Verif.Spec
variable {G : Type}

/-- The sizes of the fixed-size fields (guaranteed by the Rust types), the 8 byte nonce, a difficulty that fits 32 bits, and
exactly the solution fields that the version has. -/
structure GoodBlockHeader (h : Header G) : Prop where
  parentId : h.parentId.length = 32
  adProofsRoot : h.adProofsRoot.length = 32
  stateRoot : h.stateRoot.length = 33
  transactionRoot : h.transactionRoot.length = 32
  extensionRoot : h.extensionRoot.length = 32
  votes : h.votes.length = 3
  nBits : h.nBits.toNat < 2 ^ 32
  nonce : h.solution.nonce.length = 8
  v1 : h.version = 1 → h.solution.onetimePk.isSome = true ∧
    ∃ d, h.solution.distance = some d ∧ -((2 ^ (8 * 255 - 1) : Nat) : Int) ≤ d ∧ d < ((2 ^ (8 * 255 - 1) : Nat) : Int)
  v2 : h.version ≠ 1 → h.solution.onetimePk = none ∧ h.solution.distance = none

end Verif.Spec
