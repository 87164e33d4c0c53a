import Verif.Spec.NipopowCodec
import Verif.Proofs.Nipopow
import Verif.Props.Header
import Verif.Props.Merkle
import Verif.Props.Vlq

set_option linter.unusedSimpArgs false
set_option linter.unusedVariables false

namespace Verif
open Merkle Spec
variable {G : Type} [DecidableEq G]

theorem getLen (n : Nat) (h : n < 2 ^ 32) (rest : Bytes) : getU32 (putLen n ++ rest) = some (BitVec.ofNat 32 n, rest) :=
  getU32_put _ _

theorem toNat_len {n : Nat} (h : n < 2 ^ 32) : (BitVec.ofNat 32 n).toNat = n := by
  simp only [BitVec.toNat_ofNat]; exact Nat.mod_eq_of_lt h

theorem links_roundtrip (l : List Bytes) (h : ∀ x ∈ l, x.length = 32) (rest : Bytes) :
    replicateP l.length (readExact 32) (l.flatten ++ rest) = some (l, rest) := by
  have := replicateP_roundTrips (P := fun x : Bytes => x.length = 32) (ser := fun x => x) (p := readExact 32)
    (fun a ha r => readExact_append' a r ha) l h rest
  have e : l.flatMap (fun x => x) = l.flatten := by induction l <;> simp_all
  rwa [e] at this

theorem popow_roundtrip (H : HashFn) (pc : PointCodec G) (p : PoPowHeader G) (g : StoredPoPow H pc p) :
    ∃ bs, p.ser pc = .ok bs ∧ ∀ rest, PoPowHeader.parse H pc (bs ++ rest) = some (p, rest) := by
  obtain ⟨hb, e1, e2⟩ := C34_roundtrip H pc p.header g.header.good
  obtain ⟨hid, hlen⟩ := g.header.id hb e1
  obtain ⟨pb, e3⟩ := C30_writable p.proof g.sizes.1 g.sizes.2.1 (fun x hx => (g.indices x hx).2)
  have e4 := C30_roundtrip_partial p.proof (fun x hx => (g.indices x hx).1) g.proofs pb e3 []
  rw [List.append_nil] at e4
  have hpl := g.sizes.2.2 pb e3
  refine ⟨putLen hb.length ++ hb ++ putLen p.interlinks.length ++ p.interlinks.flatten ++ putLen pb.length ++ pb, ?_, ?_⟩
  · unfold PoPowHeader.ser
    rw [e1, e3]; rfl
  · intro rest
    unfold PoPowHeader.parse
    simp only [List.append_assoc]
    rw [Parser.bind_some (getLen hb.length hlen _), toNat_len hlen, Parser.bind_some (readExact_append hb _)]
    have h1 : ∀ s, inBuffer (Header.parse H pc) hb s = some (p.header, s) := by
      intro s
      have := e2 []
      rw [List.append_nil] at this
      unfold inBuffer
      rw [this]
      show some (_, s) = _
      rw [← hid]
    rw [Parser.bind_some (h1 _), Parser.bind_some (getLen _ g.count _), toNat_len g.count,
      Parser.bind_some (links_roundtrip _ g.links _), Parser.bind_some (getLen _ hpl _), toNat_len hpl,
      Parser.bind_some (readExact_append pb _)]
    have h2 : ∀ s, inBuffer Batch.parse pb s = some (p.proof, s) := by
      intro s
      unfold inBuffer
      rw [e4]; rfl
    rw [Parser.bind_some (h2 _)]
    rfl

theorem serAll_roundtrip {α : Type} (P : α → Prop) (f : α → Outcome Bytes) (q : Parser α) (sk : Parser Unit)
    (hsk : ∀ n rest, sk (putLen n ++ rest) = some ((), rest))
    (h : ∀ a, P a → ∃ bs, f a = .ok bs ∧ ∀ rest, q (bs ++ rest) = some (a, rest)) : ∀ l : List α, (∀ a ∈ l, P a) →
    ∃ bs, serAll f l = .ok bs ∧ ∀ rest, replicateP l.length (do sk; q) (bs ++ rest) = some (l, rest) := by
  intro l
  induction l with
  | nil => intro _; exact ⟨[], rfl, fun rest => rfl⟩
  | cons a l ih =>
    intro hl
    obtain ⟨b1, e1, e2⟩ := h a (hl a (by simp))
    obtain ⟨b2, e3, e4⟩ := ih (fun x hx => hl x (by simp [hx]))
    refine ⟨putLen b1.length ++ b1 ++ b2, ?_, ?_⟩
    · simp only [serAll]
      rw [e1, e3]; rfl
    · intro rest
      simp only [List.length_cons, replicateP, List.append_assoc]
      have : (do sk; q : Parser α) (putLen b1.length ++ (b1 ++ (b2 ++ rest))) = some (a, b2 ++ rest) := by
        rw [Parser.bind_some (hsk _ _)]
        exact e2 _
      rw [Parser.bind_some this, Parser.bind_some (e4 rest)]
      rfl

theorem nipopow_roundtrip (H : HashFn) (pc : PointCodec G) (p : NipopowProof G) (h1 : ∀ x ∈ p.pre, StoredPoPow H pc x)
    (h2 : StoredPoPow H pc p.suffixHead) (h3 : ∀ x ∈ p.suffixTail, StoredHeader H pc x)
    (hn : p.pre.length < 2 ^ 32 ∧ p.suffixTail.length < 2 ^ 32) :
    ∃ bs, p.ser pc = .ok bs ∧ ∀ rest, NipopowProof.parse H pc (bs ++ rest) = some (p, rest) := by
  obtain ⟨a, a1, a2⟩ := serAll_roundtrip (StoredPoPow H pc) (PoPowHeader.ser pc) (PoPowHeader.parse H pc) (do let _ ← getU32; pure ())
    (fun n rest => by unfold putLen; rw [Parser.bind_some (getU32_put _ _)]; rfl) (fun p hp => popow_roundtrip H pc p hp) p.pre h1
  obtain ⟨b, b1, b2⟩ := popow_roundtrip H pc p.suffixHead h2
  obtain ⟨c, c1, c2⟩ := serAll_roundtrip (StoredHeader H pc) (Header.ser pc) (Header.parse H pc) skipSize
    (fun n rest => by
      unfold skipSize putLen putU32
      rw [C01_u64_roundtrip])
    (fun h hh => by
      obtain ⟨bs, e1, e2⟩ := C34_roundtrip H pc h hh.good
      refine ⟨bs, e1, fun rest => ?_⟩
      rw [e2, ← (hh.id bs e1).1]) p.suffixTail h3
  refine ⟨putU32 p.m ++ putU32 p.k ++ putLen p.pre.length ++ a ++ (putLen b.length ++ b) ++ putLen p.suffixTail.length ++ c, ?_, ?_⟩
  · unfold NipopowProof.ser
    rw [a1, b1, c1]; rfl
  · intro rest
    unfold NipopowProof.parse
    simp only [List.append_assoc]
    rw [Parser.bind_some (getU32_put _ _), Parser.bind_some (getU32_put _ _), Parser.bind_some (getLen _ hn.1 _), toNat_len hn.1]
    have ha : ∀ r, replicateP p.pre.length (do let _ ← getU32; PoPowHeader.parse H pc) (a ++ r) = some (p.pre, r) := by
      intro r
      have e : (do let _ ← getU32; PoPowHeader.parse H pc : Parser (PoPowHeader G)) =
          (do (do let _ ← getU32; pure () : Parser Unit); PoPowHeader.parse H pc) := by
        rw [bind_assoc]; rfl
      rw [e]; exact a2 r
    rw [Parser.bind_some (ha _)]
    have hb : getU32 (putLen b.length ++ (b ++ (putLen p.suffixTail.length ++ (c ++ rest)))) = some (BitVec.ofNat 32 b.length, _) := getU32_put _ _
    rw [Parser.bind_some hb, Parser.bind_some (b2 _), Parser.bind_some (getLen _ hn.2 _), toNat_len hn.2, Parser.bind_some (c2 _)]
    rfl

end Verif
