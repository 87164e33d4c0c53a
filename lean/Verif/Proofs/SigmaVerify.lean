import Verif.Proofs.SigmaTree
import Mathlib.Tactic.LinearCombination
import Mathlib.Tactic.Module

set_option linter.unusedSimpArgs false
set_option linter.unusedVariables false

/-! What the parser and the verifier accept. -/

namespace Verif.Sigma
open Verif Verif.Spec

theorem readChallenge_inv {s r : Bytes} {e : Challenge} (h : readChallenge s = .ok (e, r)) : s = e.1 ++ r := by
  unfold readChallenge at h
  split at h
  · simp only [Outcome.ok.injEq, Prod.mk.injEq] at h
    obtain ⟨rfl, rfl⟩ := h
    exact (List.take_append_drop 24 s).symm
  · cases h

theorem theChallenge_inv {ch : Option Challenge} {s r : Bytes} {e : Challenge} (h : theChallenge ch s = .ok (e, r)) :
    (∀ c, ch = some c → e = c) := by
  cases ch with
  | none => simp
  | some c =>
    simp only [theChallenge, Outcome.ok.injEq, Prod.mk.injEq] at h
    intro c' hc; cases hc; exact h.1.symm

theorem readPoly_inv {e : Challenge} {n : Nat} {k : Byte} {s r : Bytes} {p : Gf.Poly} (h : readPoly e n k s = .ok (p, r)) :
    k.toNat ≤ n ∧ p.degree = n - k.toNat ∧ p.coefficients.length = n - k.toNat + 1 ∧ p.coefficients[0]? = some e.toGf := by
  unfold readPoly at h
  split at h
  · cases h
  · rename_i hk
    split at h
    · rename_i hl
      obtain ⟨cs, h1, h2, h3⟩ := polyFromBytes_ok e (n - k.toNat) (s.take ((n - k.toNat) * 24)) (by simp; omega)
      rw [h1, Outcome.bind_ok] at h
      simp only [Outcome.pure_eq, Outcome.ok.injEq, Prod.mk.injEq] at h
      obtain ⟨rfl, _⟩ := h
      exact ⟨by omega, rfl, by simp [h2], rfl⟩
    · cases h

section
variable {G : Type} {q : Nat}

/-- What a successful parse guarantees. -/
def PI (sb : SigmaBoolean G) : Prop := ∀ (ch : Option Challenge) (s r : Bytes) (t : Unchecked G q),
  parseSig sb ch s = .ok (t, r) → Consistent sb t ∧ (∀ c, ch = some c → t.challenge = c) ∧ clearCommitments t = t

theorem pi_and (e : Challenge) : ∀ (items : List (SigmaBoolean G)) (_ : ∀ a ∈ items, PI (q := q) a) (s r : Bytes)
    (ts : List (Unchecked G q)), parseAnd e items s = .ok (ts, r) →
    ConsistentList items ts ∧ (∀ c ∈ ts, c.challenge = e) ∧ clearCommitmentsList ts = ts
  | [], _, s, r, ts, h => by
    simp only [parseAnd, Outcome.ok.injEq, Prod.mk.injEq] at h
    obtain ⟨rfl, _⟩ := h
    exact ⟨trivial, by simp, rfl⟩
  | a :: items, ih, s, r, ts, h => by
    rw [parseAnd, Outcome.bind_eq_ok] at h
    obtain ⟨⟨t, s1⟩, h1, h⟩ := h
    simp only at h
    rw [Outcome.bind_eq_ok] at h
    obtain ⟨⟨ts', s2⟩, h2, h⟩ := h
    simp only [Outcome.pure_eq, Outcome.ok.injEq, Prod.mk.injEq] at h
    obtain ⟨rfl, _⟩ := h
    obtain ⟨a1, a2, a3⟩ := ih a (by simp) _ _ _ _ h1
    obtain ⟨b1, b2, b3⟩ := pi_and e items (fun x hx => ih x (by simp [hx])) _ _ _ h2
    refine ⟨⟨a1, b1⟩, ?_, by rw [clearCommitmentsList, a3, b3]⟩
    intro c hc
    rcases List.mem_cons.1 hc with rfl | hc
    · exact a2 e rfl
    · exact b2 c hc

theorem pi_or : ∀ (items : List (SigmaBoolean G)) (_ : ∀ a ∈ items, PI (q := q) a) (_ : items ≠ []) (acc : Challenge) (s r : Bytes)
    (ts : List (Unchecked G q)), parseOr acc items s = .ok (ts, r) →
    ConsistentList items ts ∧ xorAll (ts.map Unchecked.challenge) = acc ∧ clearCommitmentsList ts = ts
  | [], _, h, _, _, _, _, _ => absurd rfl h
  | [a], ih, _, acc, s, r, ts, h => by
    rw [parseOr, Outcome.bind_eq_ok] at h
    obtain ⟨⟨t, s1⟩, h1, h⟩ := h
    simp only [Outcome.pure_eq, Outcome.ok.injEq, Prod.mk.injEq] at h
    obtain ⟨rfl, _⟩ := h
    obtain ⟨a1, a2, a3⟩ := ih a (by simp) _ _ _ _ h1
    refine ⟨⟨a1, trivial⟩, ?_, by rw [clearCommitmentsList, a3]; rfl⟩
    simp [xorAll, xor_zero, a2 acc rfl]
  | a :: b :: items, ih, _, acc, s, r, ts, h => by
    rw [parseOr, Outcome.bind_eq_ok] at h
    · obtain ⟨⟨t, s1⟩, h1, h⟩ := h
      simp only at h
      rw [Outcome.bind_eq_ok] at h
      obtain ⟨⟨ts', s2⟩, h2, h⟩ := h
      simp only [Outcome.pure_eq, Outcome.ok.injEq, Prod.mk.injEq] at h
      obtain ⟨rfl, _⟩ := h
      obtain ⟨a1, a2, a3⟩ := ih a (by simp) _ _ _ _ h1
      obtain ⟨b1, b2, b3⟩ := pi_or (b :: items) (fun x hx => ih x (by simp [hx])) (by simp) _ _ _ _ h2
      refine ⟨⟨a1, b1⟩, ?_, by rw [clearCommitmentsList, a3, b3]⟩
      rw [List.map_cons, xorAll, b2, xor_comm, xor_xor_cancel]
    · simp

theorem pi_thr (poly : Gf.Poly) (hok : Gf.PolyOk poly) : ∀ (items : List (SigmaBoolean G)) (_ : ∀ a ∈ items, PI (q := q) a) (idx : Nat)
    (s r : Bytes) (ts : List (Unchecked G q)), parseThr poly idx items s = .ok (ts, r) →
    ConsistentList items ts ∧
      (∀ i c, ts[i]? = some c → c.challenge.toGf = gfEval poly.coefficients (gfByte (BitVec.ofNat 8 (idx + i + 1)))) ∧
      clearCommitmentsList ts = ts
  | [], _, idx, s, r, ts, h => by
    simp only [parseThr, Outcome.ok.injEq, Prod.mk.injEq] at h
    obtain ⟨rfl, _⟩ := h
    exact ⟨trivial, by simp, rfl⟩
  | a :: items, ih, idx, s, r, ts, h => by
    rw [parseThr, Gf.evaluate_eq hok, Outcome.bind_ok, Outcome.bind_eq_ok] at h
    obtain ⟨⟨t, s1⟩, h1, h⟩ := h
    simp only at h
    rw [Outcome.bind_eq_ok] at h
    obtain ⟨⟨ts', s2⟩, h2, h⟩ := h
    simp only [Outcome.pure_eq, Outcome.ok.injEq, Prod.mk.injEq] at h
    obtain ⟨rfl, _⟩ := h
    obtain ⟨a1, a2, a3⟩ := ih a (by simp) _ _ _ _ h1
    obtain ⟨b1, b2, b3⟩ := pi_thr poly hok items (fun x hx => ih x (by simp [hx])) _ _ _ _ h2
    refine ⟨⟨a1, b1⟩, ?_, by rw [clearCommitmentsList, a3, b3]⟩
    intro i c hc
    cases i with
    | zero =>
      simp only [List.getElem?_cons_zero, Option.some.injEq] at hc
      subst hc
      rw [a2 _ rfl, toGf_ofGf, Nat.add_zero]
    | succ i =>
      have := b2 i c (by simpa using hc)
      rwa [show idx + 1 + i + 1 = idx + (i + 1) + 1 by omega] at this

theorem parse_inv (sb : SigmaBoolean G) (hb : sb.Bounded) : PI (q := q) sb := by
  induction sb using SigmaBoolean.induct with
  | htriv b =>
    intro ch s r t h
    rw [parseSig, Outcome.bind_eq_ok] at h
    obtain ⟨_, _, h⟩ := h
    cases h
  | hdlog x =>
    intro ch s r t h
    rw [parseSig, Outcome.bind_eq_ok] at h
    obtain ⟨⟨e, s1⟩, h1, h⟩ := h
    simp only at h
    rw [Outcome.bind_eq_ok] at h
    obtain ⟨⟨z, s2⟩, h2, h⟩ := h
    simp only [Outcome.pure_eq, Outcome.ok.injEq, Prod.mk.injEq] at h
    obtain ⟨rfl, _⟩ := h
    exact ⟨rfl, theChallenge_inv h1, rfl⟩
  | hdht g x u v =>
    intro ch s r t h
    rw [parseSig, Outcome.bind_eq_ok] at h
    obtain ⟨⟨e, s1⟩, h1, h⟩ := h
    simp only at h
    rw [Outcome.bind_eq_ok] at h
    obtain ⟨⟨z, s2⟩, h2, h⟩ := h
    simp only [Outcome.pure_eq, Outcome.ok.injEq, Prod.mk.injEq] at h
    obtain ⟨rfl, _⟩ := h
    exact ⟨rfl, theChallenge_inv h1, rfl⟩
  | hcand items ih =>
    intro ch s r t h
    have hb' := (SigmaBoolean.boundedList_iff items).1 hb.2.2
    rw [parseSig, Outcome.bind_eq_ok] at h
    obtain ⟨⟨e, s1⟩, h1, h⟩ := h
    simp only at h
    rw [Outcome.bind_eq_ok] at h
    obtain ⟨⟨ts, s2⟩, h2, h⟩ := h
    simp only [Outcome.pure_eq, Outcome.ok.injEq, Prod.mk.injEq] at h
    obtain ⟨rfl, _⟩ := h
    obtain ⟨a1, a2, a3⟩ := pi_and e items (fun a ha => ih a ha (hb' a ha)) _ _ _ h2
    exact ⟨⟨a2, a1⟩, theChallenge_inv h1, by rw [clear_conj, a3]⟩
  | hcor items ih =>
    intro ch s r t h
    have hb' := (SigmaBoolean.boundedList_iff items).1 hb.2.2
    have hne : items ≠ [] := by intro h; subst h; exact absurd hb.1 (by simp)
    rw [parseSig, Outcome.bind_eq_ok] at h
    obtain ⟨⟨e, s1⟩, h1, h⟩ := h
    simp only at h
    rw [Outcome.bind_eq_ok] at h
    obtain ⟨⟨ts, s2⟩, h2, h⟩ := h
    simp only [Outcome.pure_eq, Outcome.ok.injEq, Prod.mk.injEq] at h
    obtain ⟨rfl, _⟩ := h
    obtain ⟨a1, a2, a3⟩ := pi_or items (fun a ha => ih a ha (hb' a ha)) hne _ _ _ _ h2
    exact ⟨⟨a2, a1⟩, theChallenge_inv h1, by rw [clear_conj, a3]⟩
  | hcth k items ih =>
    intro ch s r t h
    have hb' := (SigmaBoolean.boundedList_iff items).1 hb.2.2
    rw [parseSig, Outcome.bind_eq_ok] at h
    obtain ⟨⟨e, s1⟩, h1, h⟩ := h
    simp only at h
    rw [Outcome.bind_eq_ok] at h
    obtain ⟨⟨poly, s2⟩, h2, h⟩ := h
    simp only at h
    rw [Outcome.bind_eq_ok] at h
    obtain ⟨⟨ts, s3⟩, h3, h⟩ := h
    simp only [Outcome.pure_eq, Outcome.ok.injEq, Prod.mk.injEq] at h
    obtain ⟨rfl, _⟩ := h
    obtain ⟨p1, p2, p3, p4⟩ := readPoly_inv h2
    obtain ⟨a1, a2, a3⟩ := pi_thr poly (Gf.polyOk_full p3 p2) items (fun a ha => ih a ha (hb' a ha)) _ _ _ _ h3
    exact ⟨⟨rfl, p1, p2, p3, p4, by simpa using a2, a1⟩, theChallenge_inv h1, by rw [clear_conj, a3]⟩

/-! ### Commitments -/

variable [DecidableEq G] [AddCommGroup G] [Module (ZMod q) G]

theorem expo_eq (C : Curve G) (hone : C.codec.one = 0) (b : G) (s : ZMod q) : expo C b s = s • b := by
  unfold expo
  split
  · rename_i h; rw [h, hone, smul_zero]
  · rfl

theorem leafValid_iff (C : Curve G) (hone : C.codec.one = 0) (p : LeafProp G) (m : Msg G) (e : Challenge) (z : ZMod q) :
    LeafValid C.gen p m e z ↔ m = computeCommitment C p e z := by
  cases p <;> cases m <;>
    simp only [LeafValid, computeCommitment, expo_eq C hone, Msg.dlog.injEq, Msg.dht.injEq, reduceCtorEq]
  · rw [← sub_eq_add_neg, eq_sub_iff_add_eq, eq_comm]
  · rw [← sub_eq_add_neg, ← sub_eq_add_neg, eq_sub_iff_add_eq, eq_sub_iff_add_eq]
    exact and_congr eq_comm eq_comm

mutual
theorem consistent_compute (C : Curve G) : ∀ (sb : SigmaBoolean G) (t : Unchecked G q),
    Consistent sb t → Consistent sb (computeCommitments C t)
  | .dlog _, .leaf _ _ _ _, h => h
  | .dht _ _ _ _, .leaf _ _ _ _, h => h
  | .cand items, .conj .and e cs, h => by
    refine ⟨?_, consistent_computeList C items cs h.2⟩
    exact challenges_computeList_mem C cs e h.1
  | .cor items, .conj .or e cs, h => by
    refine ⟨?_, consistent_computeList C items cs h.2⟩
    rw [challenges_computeList]; exact h.1
  | .cth k items, .conj (.thr k' poly) e cs, h => by
    obtain ⟨h1, h2, h3, h4, h5, h6, h7⟩ := h
    refine ⟨h1, h2, h3, h4, h5, ?_, consistent_computeList C items cs h7⟩
    intro i c hc
    have : ((computeCommitmentsList C cs).map Unchecked.challenge)[i]? = some c.challenge := by rw [List.getElem?_map, hc]; rfl
    rw [challenges_computeList, List.getElem?_map, Option.map_eq_some_iff] at this
    obtain ⟨d, hd, hd2⟩ := this
    rw [← hd2]; exact h6 i d hd
  | .trivial _, .leaf _ _ _ _, h => h.elim
  | .trivial _, .conj _ _ _, h => h.elim
  | .dlog _, .conj _ _ _, h => h.elim
  | .dht _ _ _ _, .conj _ _ _, h => h.elim
  | .cand _, .leaf _ _ _ _, h => h.elim
  | .cor _, .leaf _ _ _ _, h => h.elim
  | .cth _ _, .leaf _ _ _ _, h => h.elim
  | .cand _, .conj .or _ _, h => h.elim
  | .cand _, .conj (.thr _ _) _ _, h => h.elim
  | .cor _, .conj .and _ _, h => h.elim
  | .cor _, .conj (.thr _ _) _ _, h => h.elim
  | .cth _ _, .conj .and _ _, h => h.elim
  | .cth _ _, .conj .or _ _, h => h.elim
theorem consistent_computeList (C : Curve G) : ∀ (l : List (SigmaBoolean G)) (ts : List (Unchecked G q)),
    ConsistentList l ts → ConsistentList l (computeCommitmentsList C ts)
  | [], [], h => h
  | a :: l, t :: ts, h => ⟨consistent_compute C a t h.1, consistent_computeList C l ts h.2⟩
  | [], _ :: _, h => h.elim
  | _ :: _, [], h => h.elim
theorem challenges_computeList (C : Curve G) : ∀ (ts : List (Unchecked G q)),
    (computeCommitmentsList C ts).map Unchecked.challenge = ts.map Unchecked.challenge
  | [] => rfl
  | .leaf _ _ _ _ :: ts => by simp [computeCommitmentsList, computeCommitments, Unchecked.challenge, challenges_computeList C ts]
  | .conj _ _ _ :: ts => by simp [computeCommitmentsList, computeCommitments, Unchecked.challenge, challenges_computeList C ts]
theorem challenges_computeList_mem (C : Curve G) : ∀ (ts : List (Unchecked G q)) (e : Challenge),
    (∀ c ∈ ts, c.challenge = e) → ∀ c ∈ computeCommitmentsList C ts, c.challenge = e
  | [], _, _ => by simp [computeCommitmentsList]
  | .leaf p m x z :: ts, e, h => by
    intro c hc
    rcases List.mem_cons.1 hc with rfl | hc
    · exact h (.leaf p m x z) (by simp)
    · exact challenges_computeList_mem C ts e (fun c hc => h c (by simp [hc])) c hc
  | .conj k x cs :: ts, e, h => by
    intro c hc
    rcases List.mem_cons.1 hc with rfl | hc
    · exact h (.conj k x cs) (by simp)
    · exact challenges_computeList_mem C ts e (fun c hc => h c (by simp [hc])) c hc
end

theorem compute_challenge (C : Curve G) (t : Unchecked G q) : (computeCommitments C t).challenge = t.challenge := by
  cases t <;> rfl

mutual
theorem allValid_compute (C : Curve G) (hone : C.codec.one = 0) : ∀ (t : Unchecked G q), AllValid C.gen (computeCommitments C t)
  | .leaf p m e z => ⟨_, rfl, (leafValid_iff C hone _ _ _ _).2 rfl⟩
  | .conj _ _ cs => allValid_computeList C hone cs
theorem allValid_computeList (C : Curve G) (hone : C.codec.one = 0) : ∀ (ts : List (Unchecked G q)),
    AllValidList C.gen (computeCommitmentsList C ts)
  | [] => trivial
  | t :: ts => ⟨allValid_compute C hone t, allValid_computeList C hone ts⟩
end

mutual
/-- A tree whose leaves are valid is recovered from the tree without commitments. -/
theorem compute_clear (C : Curve G) (hone : C.codec.one = 0) : ∀ (t : Unchecked G q), AllValid C.gen t →
    computeCommitments C (clearCommitments t) = t
  | .leaf p m e z, h => by
    obtain ⟨c, rfl, h⟩ := h
    rw [(leafValid_iff C hone _ _ _ _).1 h]; rfl
  | .conj kind e cs, h => by
    rw [clear_conj, computeCommitments, compute_clearList C hone cs h]
theorem compute_clearList (C : Curve G) (hone : C.codec.one = 0) : ∀ (ts : List (Unchecked G q)), AllValidList C.gen ts →
    computeCommitmentsList C (clearCommitmentsList ts) = ts
  | [], _ => rfl
  | t :: ts, h => by
    rw [clearCommitmentsList, computeCommitmentsList, compute_clear C hone t h.1, compute_clearList C hone ts h.2]
end

theorem verify_nontrivial (C : Curve G) (sb : SigmaBoolean G) (hnt : nontrivial sb) (message signature : Bytes) :
    verifySignature q C sb message signature = (if signature = [] then .ok false else
      (parseSigComputeChallenges (q := q) sb signature) >>= fun t => checkCommitments C t message) := by
  cases sb with
  | trivial b => exact hnt.elim
  | _ => rfl

theorem clear_compute (C : Curve G) (t : Unchecked G q) : clearCommitments (computeCommitments C t) = clearCommitments t := by
  refine Unchecked.rec (motive_1 := fun t => clearCommitments (computeCommitments C t) = clearCommitments t)
    (motive_2 := fun ts => clearCommitmentsList (computeCommitmentsList C ts) = clearCommitmentsList ts) ?_ ?_ ?_ ?_ t
  · intros; rfl
  · intro kind e cs ih; rw [computeCommitments, clear_conj, ih]; rfl
  · rfl
  · intro t ts h1 h2; rw [computeCommitmentsList, clearCommitmentsList, h1, h2]; rfl

/-- What acceptance means. -/
theorem verify_sound (C : Curve G) (hone : C.codec.one = 0) (sb : SigmaBoolean G) (hb : sb.Bounded) (hnt : nontrivial sb)
    (message signature : Bytes) (h : verifySignature q C sb message signature = .ok true) :
    ∃ (t : Unchecked G q) (bs : Bytes), Consistent sb t ∧ AllValid C.gen t ∧ fsUnchecked C.codec t = .ok bs ∧
      t.challenge = fsHash C.hash (bs ++ message) ∧ ∃ rest, parseSig sb none signature = .ok (clearCommitments t, rest) := by
  rw [verify_nontrivial C sb hnt] at h
  split at h
  · cases h
  · rename_i hne
    rw [Outcome.bind_eq_ok] at h
    obtain ⟨t, h1, h2⟩ := h
    unfold parseSigComputeChallenges at h1
    rw [if_neg hne, Outcome.bind_eq_ok] at h1
    obtain ⟨⟨t', r⟩, h1, h3⟩ := h1
    simp only [Outcome.pure_eq, Outcome.ok.injEq] at h3
    subst h3
    obtain ⟨a1, _, a3⟩ := parse_inv sb hb _ _ _ _ h1
    unfold checkCommitments at h2
    rw [Outcome.bind_eq_ok] at h2
    obtain ⟨bs, h2, h4⟩ := h2
    simp only [Outcome.pure_eq, Outcome.ok.injEq, decide_eq_true_eq] at h4
    refine ⟨computeCommitments C t', bs, consistent_compute C sb t' a1, allValid_compute C hone t', h2, h4, r, ?_⟩
    rw [h1]
    congr 2
    rw [clear_compute, a3]
theorem verify_complete [NeZero q] (hq : q ≤ 2 ^ 256) (C : Curve G) (hone : C.codec.one = 0) (sb : SigmaBoolean G)
    (hb : sb.Bounded) (message : Bytes) (t : Unchecked G q) (hc : Consistent sb t) (hv : AllValid C.gen t) (bs : Bytes)
    (hfs : fsUnchecked C.codec t = .ok bs) (hch : t.challenge = fsHash C.hash (bs ++ message)) :
    ∃ sig, serializeSig t = .ok sig ∧ ∀ rest, verifySignature q C sb message (sig ++ rest) = .ok true := by
  have hnt : nontrivial sb := by
    cases sb with
    | trivial b => cases t <;> exact hc.elim
    | _ => trivial
  obtain ⟨sig, h1, h2⟩ := roundtrip hq sb hb t hc true
  refine ⟨sig, h1, fun rest => ?_⟩
  have hp := h2 rest
  rw [if_pos rfl] at hp
  have hne : sig ++ rest ≠ [] := by
    intro h0
    rw [h0] at hp
    have : parseSig (q := q) sb none [] = .err := by
      cases sb <;> simp [parseSig, theChallenge, readChallenge]
    rw [this] at hp; cases hp
  rw [verify_nontrivial C sb hnt, if_neg hne]
  unfold parseSigComputeChallenges
  rw [if_neg hne, hp]
  simp only [Outcome.bind_ok, Outcome.pure_eq]
  unfold checkCommitments
  rw [compute_clear C hone t hv]
  simp only [hfs, Outcome.bind_ok, Outcome.pure_eq, ← hch, decide_true]

end

end Verif.Sigma
