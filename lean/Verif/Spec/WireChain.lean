import Verif.Spec.Wire
import Verif.Model.NipopowCodec
import Verif.Model.Peer
import Verif.Model.Signing

/-!
# The byte forms of the protocol, continued

Proofs of membership, NiPoPoW proofs, peers, reduced transactions, signatures and what is hashed for them.
-/

namespace Verif.Wire
open Merkle Sigma

/-! ## Merkle and NiPoPoW proofs -/

/-- The leaves with their places (four bytes each) and the nodes with their sides (0 left, 1 right; no hash is 32 zeros). -/
def BatchForm (p : Batch) (b : Bytes) : Prop :=
  p.indices.length < 2 ^ 32 ∧ p.proofs.length < 2 ^ 32 ∧ ∃ x y,
    Each (fun i z => i.index < 2 ^ 32 ∧ z = four i.index ++ i.hash) p.indices x ∧
    Each (fun n z => z = (match n.hash with | some h => h | none => List.replicate 32 0) ++
      [(match n.side with | .left => 0 | .right => 1 : Byte)]) p.proofs y ∧
    b = four p.indices.length ++ four p.proofs.length ++ x ++ y

/-- Something after the number of its bytes. -/
def Sized (P : Bytes → Prop) (b : Bytes) : Prop := ∃ x, P x ∧ b = vlq (x.length % 2 ^ 32) ++ x

section
variable {G B T : Type} [DecidableEq G]

/-- A header with its solution. -/
def HeaderForm (pc : PointCodec G) (h : Header G) (b : Bytes) : Prop :=
  ∃ s, SolutionForm pc h.version h.solution s ∧ b = headerForm h ++ s

/-- The header, the interlinks with their number, the proof of the interlinks. -/
def PopowForm (pc : PointCodec G) (p : PoPowHeader G) (b : Bytes) : Prop :=
  ∃ x y, Sized (HeaderForm pc p.header) x ∧ Sized (BatchForm p.proof) y ∧
    b = x ++ vlq (p.interlinks.length % 2 ^ 32) ++ p.interlinks.flatten ++ y

/-- `m`, `k`, the prefix, the head of the suffix, the rest of the suffix. -/
def NipopowForm (pc : PointCodec G) (p : NipopowProof G) (b : Bytes) : Prop :=
  ∃ x y z, Each (fun h => Sized (PopowForm pc h)) p.pre x ∧ Sized (PopowForm pc p.suffixHead) y ∧
    Each (fun h => Sized (HeaderForm pc h)) p.suffixTail z ∧
    b = vlq p.m.toNat ++ vlq p.k.toNat ++ vlq (p.pre.length % 2 ^ 32) ++ x ++ y ++ vlq (p.suffixTail.length % 2 ^ 32) ++ z

/-! ## Reduced transactions -/

/-- The bytes to sign with their number, for each input the proposition and the cost, the cost of all. -/
def ReducedForm (E : Sers G B T) (r : ReducedTx G B T) (b : Bytes) : Prop :=
  ∃ m, TxForm E (TypeForm true) (r.tx.inputs.map fun i => ⟨i.boxId, ⟨.empty, i.extension⟩⟩) r.tx.dataInputs r.tx.cands m ∧
    m.length < 2 ^ 32 ∧
    b = vlq m.length ++ m ++ (r.inputs.map fun i => sigma E.pc i.prop ++ vlq i.cost.toNat).flatten ++ vlq r.cost.toNat

/-! ## Signatures -/

/-- A number below `256 ^ 32`, greatest digit first. -/
def IsScalar {q : Nat} (z : ZMod q) (b : Bytes) : Prop := b.length = 32 ∧ unsigned b = z.val

/-- Bit `i` of the field element. -/
def gfBit (a : Gf.Gf) (i : Nat) : Bool :=
  if i < 64 then a.w0.getLsbD i else if i < 128 then a.w1.getLsbD (i - 64) else a.w2.getLsbD (i - 128)

/-- A field element: 24 bytes, lowest bits first. -/
def IsGf (a : Gf.Gf) (b : Bytes) : Prop :=
  b.length = 24 ∧ ∀ i, i < 192 → (b.getD (i / 8) 0).getLsbD (i % 8) = gfBit a i

mutual
/-- A signature; `c` tells whether the challenge of the node is written.  Children of an "or" have their challenges but for the
last one; a threshold has the coefficients of its polynomial from the first power on. -/
def SigForm {q : Nat} : Unchecked G q → Bool → Bytes → Prop
  | .leaf _ _ e z, c, b => ∃ x, IsScalar z x ∧ b = (if c then e.1 else []) ++ x
  | .conj .and e l, c, b => ∃ x, SigAll l x ∧ b = (if c then e.1 else []) ++ x
  | .conj .or e l, c, b => ∃ x, SigOr l x ∧ b = (if c then e.1 else []) ++ x
  | .conj (.thr k p) e l, c, b => ∃ x y, k.toNat ≤ l.length ∧ p.degree = l.length - k.toNat ∧
      Each IsGf ((p.coefficients.drop 1).take p.degree) y ∧ SigAll l x ∧ b = (if c then e.1 else []) ++ y ++ x
/-- Children without challenges. -/
def SigAll {q : Nat} : List (Unchecked G q) → Bytes → Prop
  | [], b => b = []
  | t :: l, b => ∃ x y, SigForm t false x ∧ SigAll l y ∧ b = x ++ y
/-- Children with challenges, but for the last one. -/
def SigOr {q : Nat} : List (Unchecked G q) → Bytes → Prop
  | [], b => b = []
  | [t], b => SigForm t false b
  | t :: l, b => ∃ x y, SigForm t true x ∧ SigOr l y ∧ b = x ++ y
end

/-- Two digits, greatest first. -/
def two (n : Nat) : Bytes := [BitVec.ofNat 8 (n / 256), BitVec.ofNat 8 n]

/-- The bytes of a first message. -/
def msgForm (pc : PointCodec G) : Msg G → Bytes
  | .dlog a => point pc a
  | .dht a b => point pc a ++ point pc b

/-- The tree whose bytes stand for a leaf: version 0, one constant apart, a placeholder as script. -/
def leafTree (p : LeafProp G) : ETree G B :=
  .parsed ⟨0, true, false⟩ [⟨.sigmaProp, .sigmaProp p.toSB⟩] (.placeholder 0 .sigmaProp)

mutual
/-- What is hashed for a tree: leaves are 1, proposition and first message with their sizes, the others 0, their kind (0 and,
1 or, 2 threshold with the number needed), the number of children, the children. -/
def FsForm {q : Nat} (E : Sers G B T) : Unchecked G q → Bytes → Prop
  | .leaf p m _ _, b => ∃ t a, TreeForm E (TypeForm true) (leafTree p) t ∧ m = some a ∧
      b = 1 :: (two t.length ++ t ++ two (msgForm E.pc a).length ++ msgForm E.pc a)
  | .conj .and _ l, b => ∃ x, FsAll E l x ∧ b = 0 :: 0 :: (two l.length ++ x)
  | .conj .or _ l, b => ∃ x, FsAll E l x ∧ b = 0 :: 1 :: (two l.length ++ x)
  | .conj (.thr k _) _ l, b => ∃ x, FsAll E l x ∧ b = 0 :: 2 :: k :: (two l.length ++ x)
/-- Children one after the other. -/
def FsAll {q : Nat} (E : Sers G B T) : List (Unchecked G q) → Bytes → Prop
  | [], b => b = []
  | t :: l, b => ∃ x y, FsForm E t x ∧ FsAll E l y ∧ b = x ++ y
end

end

/-! ## Peers -/

/-- An address of version 4 with its port. -/
def AddrForm : PeerAddr → Bytes → Prop
  | .v4 a b c d port, x => x = [a, b, c, d] ++ vlq port.toNat
  | .v6 .., _ => False

/-- A string of at most 255 bytes. -/
def ShortForm (s b : Bytes) : Prop := s.length < 256 ∧ b = BitVec.ofNat 8 s.length :: s

/-- A feature: its code, its size, its bytes. -/
def FeatureForm : PeerFeature → Bytes → Prop
  | .localAddress a, b => ∃ x, AddrForm a x ∧ b = 2 :: (vlq x.length ++ x)

/-- Agent, version, name, address (with the size of the address proper), features. -/
def PeerForm (s : PeerSpec) (b : Bytes) : Prop :=
  ∃ w x y z, ShortForm s.agentName w ∧ ShortForm s.nodeName x ∧
    (match s.declaredAddr with
      | none => y = [0]
      | some a => ∃ u, AddrForm a u ∧ y = 1 :: 4 :: u) ∧
    Each FeatureForm (s.features.getD []) z ∧
    b = w ++ [s.version.major, s.version.minor, s.version.patch] ++ x ++ y ++ [BitVec.ofNat 8 (s.features.getD []).length] ++ z

end Verif.Wire
