import Verif.Model.NipopowCodec
import Verif.Spec.Header

/-!
# Proofs of proof-of-work as they are stored and sent
-/

namespace Verif
open Merkle Spec
variable {G : Type} [DecidableEq G]

/-- A header in a form that is read back: good fields, an id that is the hash of its bytes. -/
structure Spec.StoredHeader (H : HashFn) (pc : PointCodec G) (h : Header G) : Prop where
  good : GoodBlockHeader h
  id : ∀ bs, h.ser pc = .ok bs → h.id = H bs ∧ bs.length < 2 ^ 32

/-- A header with interlinks in a form that is read back. -/
structure Spec.StoredPoPow (H : HashFn) (pc : PointCodec G) (p : PoPowHeader G) : Prop where
  header : StoredHeader H pc p.header
  links : ∀ x ∈ p.interlinks, x.length = 32
  count : p.interlinks.length < 2 ^ 32
  indices : ∀ x ∈ p.proof.indices, x.hash.length = 32 ∧ x.index < 2 ^ 32
  proofs : ∀ l ∈ p.proof.proofs, ∀ h, l.hash = some h → h.length = 32 ∧ ∃ b ∈ h, b ≠ 0#8
  sizes : p.proof.indices.length < 2 ^ 32 ∧ p.proof.proofs.length < 2 ^ 32 ∧ ∀ bs, p.proof.ser = some bs → bs.length < 2 ^ 32

end Verif
