import Verif.Model.SigmaTree
import Verif.Model.Prover
import Verif.Spec.Gf
import Verif.Spec.SigmaBoolean

/-! What a proof tree has to satisfy (specification). -/

namespace Verif.Spec
open Verif Verif.Sigma

/-- The challenge of all zeros. -/
def zeroChallenge : Challenge := ⟨List.replicate 24 0#8, rfl⟩

/-- Bitwise exclusive or of a list of challenges. -/
def xorAll : List Challenge → Challenge
  | [] => zeroChallenge
  | e :: es => e.xor (xorAll es)

section
variable {G : Type} {q : Nat}

mutual
/-- The tree is a tree for the proposition, and the challenges are distributed as the protocol demands: the children of
an AND share the challenge of their parent, those of an OR XOR to it, those of a `k`-of-`n` threshold lie (at the points
1, …, n) on a polynomial of degree `n - k` over GF(2^192) that takes the parent's challenge at 0. -/
def Consistent : SigmaBoolean G → Unchecked G q → Prop
  | .dlog h, .leaf p _ _ _ => p = .dlog h
  | .dht g h u v, .leaf p _ _ _ => p = .dht g h u v
  | .cand items, .conj .and e cs => (∀ c ∈ cs, c.challenge = e) ∧ ConsistentList items cs
  | .cor items, .conj .or e cs => xorAll (cs.map Unchecked.challenge) = e ∧ ConsistentList items cs
  | .cth k items, .conj (.thr k' poly) e cs =>
    k' = k ∧ k.toNat ≤ items.length ∧ poly.degree = items.length - k.toNat ∧
      poly.coefficients.length = items.length - k.toNat + 1 ∧ poly.coefficients[0]? = some e.toGf ∧
      (∀ i c, cs[i]? = some c → c.challenge.toGf = gfEval poly.coefficients (gfByte (BitVec.ofNat 8 (i + 1)))) ∧
      ConsistentList items cs
  | _, _ => False
/-- Child by child. -/
def ConsistentList : List (SigmaBoolean G) → List (Unchecked G q) → Prop
  | [], [] => True
  | a :: as, t :: ts => Consistent a t ∧ ConsistentList as ts
  | _, _ => False
end

/-- The verification equation of a leaf: `g^z = a h^e` for a discrete logarithm, `g^z = a u^e` and `h^z = b v^e` for a
Diffie-Hellman tuple. -/
def LeafValid [AddCommGroup G] [Module (ZMod q) G] (gen : G) (p : LeafProp G) (m : Msg G) (e : Challenge) (z : ZMod q) : Prop :=
  match p, m with
  | .dlog h, .dlog a => z • gen = a + (e.toScalar : ZMod q) • h
  | .dht g h u v, .dht a b => z • g = a + (e.toScalar : ZMod q) • u ∧ z • h = b + (e.toScalar : ZMod q) • v
  | _, _ => False

mutual
/-- Every leaf carries a commitment that satisfies its equation. -/
def AllValid [AddCommGroup G] [Module (ZMod q) G] (gen : G) : Unchecked G q → Prop
  | .leaf p m e z => ∃ c, m = some c ∧ LeafValid gen p c e z
  | .conj _ _ cs => AllValidList gen cs
/-- Child by child. -/
def AllValidList [AddCommGroup G] [Module (ZMod q) G] (gen : G) : List (Unchecked G q) → Prop
  | [] => True
  | t :: ts => AllValid gen t ∧ AllValidList gen ts
end

mutual
/-- The tree without its commitments (they are not part of the proof bytes). -/
def clearCommitments : Unchecked G q → Unchecked G q
  | .leaf p _ e z => .leaf p none e z
  | .conj kind e cs => .conj kind e (clearCommitmentsList cs)
/-- Child by child. -/
def clearCommitmentsList : List (Unchecked G q) → List (Unchecked G q)
  | [] => []
  | t :: ts => clearCommitments t :: clearCommitmentsList ts
end

/-- Same connective and, for thresholds, same `k`. -/
def SameKind : UKind → UKind → Prop
  | .and, .and => True
  | .or, .or => True
  | .thr k _, .thr k' _ => k = k'
  | _, _ => False

mutual
/-- Same shape, connectives, leaf propositions and leaf commitments; challenges, responses and polynomials may differ. -/
def SameStatement : Unchecked G q → Unchecked G q → Prop
  | .leaf p m _ _, .leaf p' m' _ _ => p = p' ∧ m = m'
  | .conj kind _ cs, .conj kind' _ cs' => SameKind kind kind' ∧ SameStatementList cs cs'
  | _, _ => False
/-- Child by child. -/
def SameStatementList : List (Unchecked G q) → List (Unchecked G q) → Prop
  | [], [] => True
  | t :: ts, t' :: ts' => SameStatement t t' ∧ SameStatementList ts ts'
  | _, _ => False
end

mutual
/-- No node has more children than a 16-bit count can tell. -/
def ChildCountsFit : Unchecked G q → Prop
  | .leaf _ _ _ _ => True
  | .conj _ _ cs => cs.length < 65536 ∧ ChildCountsFitList cs
/-- Child by child. -/
def ChildCountsFitList : List (Unchecked G q) → Prop
  | [] => True
  | t :: ts => ChildCountsFit t ∧ ChildCountsFitList ts
end

/-- `w` is a secret for the leaf statement. -/
def IsWitness [AddCommGroup G] [Module (ZMod q) G] (gen : G) : LeafProp G → ZMod q → Prop
  | .dlog h, w => h = w • gen
  | .dht g h u v, w => u = w • g ∧ v = w • h

mutual
/-- The secrets computed from two transcripts: `(z - z') / (e - e')` at every leaf where the challenges differ. -/
def extract [Fact q.Prime] : Unchecked G q → Unchecked G q → List (LeafProp G × ZMod q)
  | .leaf p _ e z, .leaf _ _ e' z' =>
    if e = e' then [] else [(p, (z - z') / ((e.toScalar : ZMod q) - e'.toScalar))]
  | .conj _ _ cs, .conj _ _ cs' => extractList cs cs'
  | _, _ => []
/-- Child by child. -/
def extractList [Fact q.Prime] : List (Unchecked G q) → List (Unchecked G q) → List (LeafProp G × ZMod q)
  | t :: ts, t' :: ts' => extract t t' ++ extractList ts ts'
  | _, _ => []
end

/-- The assignment that makes provable exactly the statements with a secret in the list. -/
def knownBy [DecidableEq G] (l : List (LeafProp G × ZMod q)) : Assignment G where
  dlog h := l.any fun x => decide (x.1 = .dlog h)
  dht g h u v := l.any fun x => decide (x.1 = .dht g h u v)

end

mutual
/-- No constant proposition anywhere in the tree. -/
def NoTrivial {G : Type} : SigmaBoolean G → Prop
  | .trivial _ => False
  | .dlog _ => True
  | .dht _ _ _ _ => True
  | .cand l => NoTrivialList l
  | .cor l => NoTrivialList l
  | .cth _ l => NoTrivialList l
/-- Child by child. -/
def NoTrivialList {G : Type} : List (SigmaBoolean G) → Prop
  | [] => True
  | a :: l => NoTrivial a ∧ NoTrivialList l
end

mutual
/-- No OR has two equal children. -/
def OrDistinct {G : Type} : SigmaBoolean G → Prop
  | .trivial _ => True
  | .dlog _ => True
  | .dht _ _ _ _ => True
  | .cand l => OrDistinctList l
  | .cor l => l.Nodup ∧ OrDistinctList l
  | .cth _ l => OrDistinctList l
/-- Child by child. -/
def OrDistinctList {G : Type} : List (SigmaBoolean G) → Prop
  | [] => True
  | a :: l => OrDistinct a ∧ OrDistinctList l
end

mutual
/-- Every threshold asks for at most as many children as it has. -/
def ThrOk {G : Type} : SigmaBoolean G → Prop
  | .trivial _ => True
  | .dlog _ => True
  | .dht _ _ _ _ => True
  | .cand l => ThrOkList l
  | .cor l => ThrOkList l
  | .cth k l => k.toNat ≤ l.length ∧ ThrOkList l
/-- Child by child. -/
def ThrOkList {G : Type} : List (SigmaBoolean G) → Prop
  | [] => True
  | a :: l => ThrOk a ∧ ThrOkList l
end

section
variable {G : Type} {q : Nat} [AddCommGroup G] [Module (ZMod q) G]

/-- What the secrets of the prover have to satisfy: a Diffie-Hellman secret is the secret of its own tuple. -/
def SecretsOk (secrets : List (Secret G q)) : Prop :=
  ∀ s ∈ secrets, match s with
    | .dlog _ => True
    | .dht w g h u v => u = w • g ∧ v = w • h

/-- The leaf statements for which one of the secrets is a secret. -/
def provableWith [DecidableEq G] (gen : G) (secrets : List (Secret G q)) : Assignment G where
  dlog x := secrets.any fun
    | .dlog w => decide (x = w • gen)
    | _ => false
  dht g h u v := secrets.any fun
    | .dht _ g' h' u' v' => decide (g = g' ∧ h = h' ∧ u = u' ∧ v = v')
    | _ => false

end

end Verif.Spec
