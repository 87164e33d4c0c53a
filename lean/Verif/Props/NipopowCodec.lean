import Verif.Proofs.NipopowCodec
import Verif.Props.Interlinks

/-!
# C59: codec of proofs of proof-of-work
-/

namespace Verif
open Merkle Spec

section
variable {G : Type} [DecidableEq G]

/-- C59: a header with interlinks and their proof is read back unchanged, from any stream. -/
theorem C59_popow_roundtrip_partial (H : HashFn) (pc : PointCodec G) (p : PoPowHeader G) (g : StoredPoPow H pc p) :
    ∃ bs, p.ser pc = .ok bs ∧ ∀ rest, PoPowHeader.parse H pc (bs ++ rest) = some (p, rest) := popow_roundtrip H pc p g

/-- C59: a proof is read back unchanged, from any stream, if its headers have the fields and ids of real headers (see C34), their
interlinks are 32-byte ids and their Merkle proofs have no all-zero hash (see C30). -/
theorem C59_roundtrip_partial (H : HashFn) (pc : PointCodec G) (p : NipopowProof G) (h1 : ∀ x ∈ p.pre, StoredPoPow H pc x)
    (h2 : StoredPoPow H pc p.suffixHead) (h3 : ∀ x ∈ p.suffixTail, StoredHeader H pc x)
    (hn : p.pre.length < 2 ^ 32 ∧ p.suffixTail.length < 2 ^ 32) :
    ∃ bs, p.ser pc = .ok bs ∧ ∀ rest, NipopowProof.parse H pc (bs ++ rest) = some (p, rest) :=
  nipopow_roundtrip H pc p h1 h2 h3 hn

/-- C59: two such proofs with the same bytes are the same. -/
theorem C59_injective_partial (H : HashFn) (pc : PointCodec G) (p q : NipopowProof G) (h1 : ∀ x ∈ p.pre ++ q.pre, StoredPoPow H pc x)
    (h2 : StoredPoPow H pc p.suffixHead ∧ StoredPoPow H pc q.suffixHead)
    (h3 : ∀ x ∈ p.suffixTail ++ q.suffixTail, StoredHeader H pc x)
    (hn : p.pre.length < 2 ^ 32 ∧ p.suffixTail.length < 2 ^ 32) (hn' : q.pre.length < 2 ^ 32 ∧ q.suffixTail.length < 2 ^ 32)
    (e : p.ser pc = q.ser pc) : p = q := by
  obtain ⟨a, a1, a2⟩ := nipopow_roundtrip H pc p (fun x hx => h1 x (by simp [hx])) h2.1 (fun x hx => h3 x (by simp [hx])) hn
  obtain ⟨b, b1, b2⟩ := nipopow_roundtrip H pc q (fun x hx => h1 x (by simp [hx])) h2.2 (fun x hx => h3 x (by simp [hx])) hn'
  rw [a1, b1] at e
  obtain rfl : a = b := by injection e
  have := a2 []
  rw [b2 []] at this
  simpa using this.symm

/-- C59, violation: the sizes written in front of the parts are not checked: any number may stand there.  Two different byte
strings are read as the same proof. -/
theorem C59_violation_sizes (H : HashFn) (pc : PointCodec G) (p : NipopowProof G) (h1 : p.pre = [])
    (h2 : StoredPoPow H pc p.suffixHead) (h3 : p.suffixTail = []) (n : BitVec 32) :
    ∃ b, p.suffixHead.ser pc = .ok b ∧
      NipopowProof.parse H pc (putU32 p.m ++ putU32 p.k ++ putLen 0 ++ putU32 n ++ b ++ putLen 0) = some (p, []) := by
  obtain ⟨b, b1, b2⟩ := popow_roundtrip H pc p.suffixHead h2
  refine ⟨b, b1, ?_⟩
  unfold NipopowProof.parse
  simp only [List.append_assoc]
  rw [Parser.bind_some (getU32_put _ _), Parser.bind_some (getU32_put _ _), Parser.bind_some (getLen 0 (by decide) _),
    toNat_len (by decide)]
  simp only [replicateP]
  have e0 : ∀ (α : Type) (s : Bytes), (pure [] : Parser (List α)) s = some ([], s) := fun _ _ => rfl
  rw [Parser.bind_some (e0 _ _), Parser.bind_some (getU32_put _ _), Parser.bind_some (b2 _)]
  have e1 : getU32 (putLen 0) = some (BitVec.ofNat 32 0, []) := by
    have := getLen 0 (by decide) []
    rwa [List.append_nil] at this
  rw [Parser.bind_some e1, toNat_len (by decide)]
  show some (_, []) = _
  cases p
  simp only at h1 h3
  subst h1; subst h3
  rfl

end

/-- A header as read from the network: its id is the hash of its bytes. -/
def storedV2 : Header (Fin 3) :=
  { headerV2 with id := match headerV2.ser toyCodec with | .ok b => sumHash b | _ => [] }

theorem storedV2_stored : StoredHeader sumHash toyCodec storedV2 where
  good := { headerV2_good with }
  id := by
    intro bs h
    have e : storedV2.ser toyCodec = headerV2.ser toyCodec := rfl
    rw [e] at h
    constructor
    · show (match headerV2.ser toyCodec with | .ok b => sumHash b | _ => []) = _
      rw [h]
    · have : (match headerV2.ser toyCodec with | .ok b => decide (b.length < 2 ^ 32) | _ => true) = true := by decide +kernel
      rw [h] at this
      simpa using this

/-- The same with two interlinks and a Merkle proof. -/
def storedPoPow : PoPowHeader (Fin 3) :=
  ⟨storedV2, [List.replicate 32 1, List.replicate 32 2],
    { indices := [{ index := 0, hash := sumHash [1] }], proofs := [{ hash := some (sumHash [2]), side := .right }] }⟩

/-- A proof with two headers with interlinks and one without, in the form asked for; it survives. -/
example : ∃ p : NipopowProof (Fin 3), p.pre.length = 1 ∧ p.suffixTail.length = 1 ∧
    (∀ x ∈ p.suffixHead :: p.pre, StoredPoPow sumHash toyCodec x ∧ x.interlinks.length = 2) ∧ (∀ x ∈ p.suffixTail, StoredHeader sumHash toyCodec x) := by
  have hs : StoredPoPow sumHash toyCodec storedPoPow := by
    refine ⟨storedV2_stored, by decide, by decide, ?_, ?_, by decide, by decide, ?_⟩
    · intro x hx
      simp [storedPoPow] at hx; subst hx
      exact ⟨sumHash.len _, by decide⟩
    · intro l hl h hh
      simp [storedPoPow] at hl; subst hl
      simp at hh; subst hh
      exact ⟨sumHash.len _, by decide +kernel⟩
    · intro bs h
      change Batch.ser { indices := [{ index := 0, hash := sumHash [1] }], proofs := [{ hash := some (sumHash [2]), side := .right }] } = _ at h
      have : (match Batch.ser { indices := [{ index := 0, hash := sumHash [1] }], proofs := [{ hash := some (sumHash [2]), side := .right }] } with
        | some b => decide (b.length < 2 ^ 32) | none => true) = true := by decide +kernel
      rw [h] at this
      simpa using this
  refine ⟨⟨6, 10, [storedPoPow], storedPoPow, [storedV2]⟩, rfl, rfl, ?_, ?_⟩
  · intro x hx
    simp at hx
    subst hx
    exact ⟨hs, rfl⟩
  · intro x hx
    simp at hx
    subst hx
    exact storedV2_stored

end Verif
