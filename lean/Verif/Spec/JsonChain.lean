import Verif.Model.JsonChain
import Verif.Spec.DerivationPath

/-!
# What is meant by a header, a proof and a number in JSON

The sizes that the Rust types fix and byte lists do not; the decimal spellings of an integer.
-/

namespace Verif.Spec
open Merkle

/-- The sizes fixed by the types of the fields of `Header` (`[u8; 32]`, `[u8; 33]`, `[u8; 3]`). -/
structure HeaderSizes {G : Type} (h : Header G) : Prop where
  id : h.id.length = 32
  parentId : h.parentId.length = 32
  adProofsRoot : h.adProofsRoot.length = 32
  stateRoot : h.stateRoot.length = 33
  transactionRoot : h.transactionRoot.length = 32
  extensionRoot : h.extensionRoot.length = 32
  votes : h.votes.length = 3

/-- Decimal digits with underscores between or behind them, and their value. -/
def SpellsNat (s : List Char) (n : Nat) : Prop :=
  s.head? ≠ some '_' ∧ s ≠ [] ∧ (∀ c ∈ s, c ≠ '_' → 48 ≤ c.toNat ∧ c.toNat ≤ 57) ∧ n = digitsValue (s.filter (· ≠ '_'))

/-- A spelling of an integer: digits behind at most one sign. -/
def SpellsInt (s : List Char) (i : Int) : Prop :=
  (∃ n, SpellsNat s n ∧ i = n) ∨ (∃ d n, s = '+' :: d ∧ SpellsNat d n ∧ i = n) ∨ (∃ d n, s = '-' :: d ∧ SpellsNat d n ∧ i = -n)

/-- A level of a proof holds no hash or one of 32 bytes (`Option<Digest32>`). -/
def LevelSizes (l : LevelNode) : Prop := ∀ b, l.hash = some b → b.length = 32

/-- The sizes in a batch proof: 32 byte hashes, indices in a `usize`. -/
structure BatchSizes (p : Batch) : Prop where
  indices : ∀ x ∈ p.indices, x.hash.length = 32 ∧ x.index < 2 ^ 64
  proofs : ∀ l ∈ p.proofs, LevelSizes l

/-- The sizes in a header with interlinks. -/
structure PoPowSizes {G : Type} (p : PoPowHeader G) : Prop where
  header : HeaderSizes p.header
  links : ∀ b ∈ p.interlinks, b.length = 32
  proof : BatchSizes p.proof

/-- The headers of a NiPoPoW proof. -/
def nipopowHeaders {G : Type} (p : NipopowProof G) : List (Header G) :=
  p.pre.map PoPowHeader.header ++ p.suffixHead.header :: p.suffixTail

/-- The sizes in a NiPoPoW proof. -/
structure NipopowSizes {G : Type} (p : NipopowProof G) : Prop where
  pre : ∀ x ∈ p.pre, PoPowSizes x
  head : PoPowSizes p.suffixHead
  tail : ∀ h ∈ p.suffixTail, HeaderSizes h

end Verif.Spec
