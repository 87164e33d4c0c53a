import Verif.Proofs.ProverFinish
import Mathlib.Data.Nat.Prime.Infinite

set_option linter.unusedSimpArgs false
set_option linter.unusedVariables false

/-!
# Sigma protocols: prover, verifier, proof bytes (C21 to C25)

Throughout, `G` is any additive group on which the scalars `ZMod q` act and `hone` says that the point the code treats
as the identity is the neutral element of that group.
-/

namespace Verif
open Verif.Sigma Verif.Spec

section
variable {G : Type} [DecidableEq G] {q : Nat} [AddCommGroup G] [Module (ZMod q) G]

/-! A toy instance for the examples: the group of order 3. -/

/-- Group of order 3 with a toy encoding and a toy hash. -/
def toyCurve : Curve (ZMod 3) := ⟨(toyCodec : PointCodec (Fin 3)), 1, sumHash⟩

/-- Some "randomness". -/
def toyRnd : Rnd 3 where
  challenge p := ⟨List.replicate 24 (BitVec.ofNat 8 (17 * p.foldl (· * 3 + · + 1) 1)), by simp⟩
  bytes p i := BitVec.ofNat 8 (p.length * 7 + i * i)
  simZ p := (p.foldl (· + ·) 1 : Nat)
  realR p := (p.foldl (· + ·) 2 : Nat)
  fallbackZ _ := 0

/-- A prover with the secret of the public key 2 and of a Diffie-Hellman tuple. -/
def toyProver : ProverEnv (ZMod 3) 3 := ⟨toyCurve, [.dlog 2, .dht 2 1 2 2 1], [], toyRnd⟩

/-- A 2-of-3 threshold over a known key, an OR with one known and one unknown branch, and an unknown AND. -/
def toyProp : SigmaBoolean (ZMod 3) :=
  .cth 2 [.dlog 2, .cor [.dlog 1, .dht 1 2 2 1], .cand [.dlog 1, .dlog 0]]

/-! ## C21 -/

/-- C21 with what the code demands of the proposition.  If the prover's secrets make the proposition provable, then for
every message and all randomness a proof is produced and the verifier accepts it.

Missing with respect to C21: the proposition has at least two and at most 255 children per connective and no constants
inside (this is what the constructors and `SigmaBoolean` normalization deliver), no threshold asks for more than it has
(`C21_threshold_panic`), and no OR has two equal children (`C21_duplicate_or_rejected`: there the generated proof is
rejected).  The hints bag is empty (single signer). -/
theorem C21_accepted_partial [NeZero q] (hq : q ≤ 2 ^ 256) (E : ProverEnv G q) (hh : E.hints = [])
    (hone : E.curve.codec.one = 0) (hs : SecretsOk E.secrets) (sb : SigmaBoolean G) (hnt : NoTrivial sb) (hb : sb.Bounded)
    (hthr : ThrOk sb) (hod : OrDistinct sb) (hk : holds (provableWith E.curve.gen E.secrets) sb = true) (message : Bytes) :
    ∃ sig, generateProof E sb message = .ok sig ∧ verifySignature q E.curve sb message sig = .ok true := by
  rw [← secretsKnow_eq E.curve hone] at hk
  obtain ⟨sig, h1, h2⟩ := prover_complete E hq hh hone hs sb hnt hb hthr hod hk message
  exact ⟨sig, h1, by simpa using h2 []⟩

/-- The hypotheses of `C21_accepted_partial` hold for the toy prover and proposition. -/
example : toyProver.hints = [] ∧ toyProver.curve.codec.one = 0 ∧ SecretsOk toyProver.secrets ∧ NoTrivial toyProp ∧
    toyProp.Bounded ∧ ThrOk toyProp ∧ OrDistinct toyProp ∧
    holds (provableWith toyProver.curve.gen toyProver.secrets) toyProp = true := by
  refine ⟨rfl, rfl, ?_, ?_, ?_, ?_, ?_, by decide +kernel⟩
  · intro s hs
    simp only [toyProver, List.mem_cons, List.not_mem_nil, or_false] at hs
    rcases hs with rfl | rfl
    · trivial
    · show (2 : ZMod 3) = 2 • (1 : ZMod 3) ∧ (1 : ZMod 3) = (2 : ZMod 3) • (2 : ZMod 3)
      decide
  · simp [toyProp, NoTrivial, NoTrivialList]
  · simp [toyProp, SigmaBoolean.Bounded, SigmaBoolean.BoundedList]
  · simp [toyProp, ThrOk, ThrOkList]
  · simp [toyProp, OrDistinct, OrDistinctList]

/-- Run of the toy prover and verifier. -/
example : (generateProof toyProver toyProp [7, 7] >>= verifySignature 3 toyCurve toyProp [7, 7]) = .ok true := by
  decide +kernel

/-- C21: a true constant proposition needs no proof, and the empty proof is accepted. -/
theorem C21_trivial (E : ProverEnv G q) (message : Bytes) :
    generateProof E (.trivial true) message = .ok [] ∧
      verifySignature q E.curve (.trivial true) message [] = .ok true := ⟨rfl, rfl⟩

/-- C21, the other direction: without sufficient secrets the prover reports an error (whatever the shape of the
proposition). -/
theorem C21_refused (E : ProverEnv G q) (hh : E.hints = []) (hone : E.curve.codec.one = 0) (sb : SigmaBoolean G)
    (hnt : NoTrivial sb) (hk : holds (provableWith E.curve.gen E.secrets) sb = false) (message : Bytes) :
    generateProof E sb message = .err := by
  rw [← secretsKnow_eq E.curve hone] at hk
  exact prover_refuses E hh sb hnt hk message

/-- C21: a false constant proposition has no proof, and no proof of it is accepted. -/
theorem C21_trivial_false (E : ProverEnv G q) (message proof : Bytes) :
    generateProof E (.trivial false) message = .err ∧
      verifySignature q E.curve (.trivial false) message proof ≠ .ok true := by
  refine ⟨rfl, ?_⟩
  show (Outcome.ok false : Outcome Bool) ≠ .ok true
  simp

/-- C21: a proof is produced only if the proposition is provable with the secrets (constants at the root included). -/
theorem C21_only_provable (E : ProverEnv G q) (hh : E.hints = []) (hone : E.curve.codec.one = 0) (sb : SigmaBoolean G)
    (hnt : NoTrivial sb ∨ ∃ b, sb = .trivial b) (message sig : Bytes) (h : generateProof E sb message = .ok sig) :
    holds (provableWith E.curve.gen E.secrets) sb = true := by
  rcases hnt with hnt | ⟨b, rfl⟩
  · cases hk : holds (provableWith E.curve.gen E.secrets) sb with
    | true => rfl
    | false => rw [C21_refused E hh hone sb hnt hk message] at h; cases h
  · cases b with
    | true => rfl
    | false => rw [(C21_trivial_false E message []).1] at h; cases h

/-- A proposition for which the toy prover has no sufficient secrets. -/
example : NoTrivial (.cand [.dlog (2 : ZMod 3), .cor [.dlog 1, .dlog 0]] : SigmaBoolean (ZMod 3)) ∧
    holds (provableWith toyProver.curve.gen toyProver.secrets) (.cand [.dlog 2, .cor [.dlog 1, .dlog 0]]) = false :=
  ⟨by simp [NoTrivial, NoTrivialList], by decide +kernel⟩

/-- Finding for C21: an OR with two equal provable children gets a proof that the verifier rejects.  The prover selects
the real child by comparing trees, so both children stay real and both get the same challenge. -/
theorem C21_duplicate_or_rejected : ∃ (E : ProverEnv (ZMod 3) 3) (sb : SigmaBoolean (ZMod 3)) (message sig : Bytes),
    E.hints = [] ∧ holds (provableWith E.curve.gen E.secrets) sb = true ∧ sb.Bounded ∧
    generateProof E sb message = .ok sig ∧ verifySignature 3 E.curve sb message sig = .ok false := by
  refine ⟨toyProver, .cor [.dlog 2, .dlog 2], [1],
    (match generateProof toyProver (.cor [.dlog 2, .dlog 2]) [1] with | .ok s => s | _ => []), rfl, by decide +kernel, ?_, ?_, ?_⟩
  · simp [SigmaBoolean.Bounded, SigmaBoolean.BoundedList]
  · decide +kernel
  · decide +kernel

/-- Finding for C21: a threshold that asks for more children than it has makes the prover panic, although the
proposition is provable through another branch. -/
theorem C21_threshold_panic : ∃ (E : ProverEnv (ZMod 3) 3) (sb : SigmaBoolean (ZMod 3)) (message : Bytes),
    E.hints = [] ∧ holds (provableWith E.curve.gen E.secrets) sb = true ∧ sb.Bounded ∧
    generateProof E sb message = .panic := by
  refine ⟨toyProver, .cor [.dlog 2, .cth 3 [.dlog 1, .dlog 0]], [1], rfl, by decide +kernel, ?_, by decide +kernel⟩
  simp [SigmaBoolean.Bounded, SigmaBoolean.BoundedList]

/-! ## C22 -/

/-- C22: a consistent proof tree can be written, and reading the bytes (followed by anything) for the same proposition
gives back the whole tree: connectives, polynomials, challenges and responses of every node.  Only the commitments,
which are not written, are missing. -/
theorem C22_roundtrip [NeZero q] (hq : q ≤ 2 ^ 256) (sb : SigmaBoolean G) (hb : sb.Bounded) (t : Unchecked G q)
    (hc : Consistent sb t) : ∃ bs, serializeSig t = .ok bs ∧ ∀ rest,
      parseSigComputeChallenges sb (bs ++ rest) = .ok (clearCommitments t) := by
  obtain ⟨bs, h1, h2⟩ := roundtrip hq sb hb t hc true
  refine ⟨bs, h1, fun rest => ?_⟩
  have hp := h2 rest
  rw [if_pos rfl] at hp
  have hne : bs ++ rest ≠ [] := by
    intro h0
    rw [h0] at hp
    have : parseSig (q := q) sb none [] = .err := by cases sb <;> simp [parseSig, theChallenge, readChallenge]
    rw [this] at hp; cases hp
  unfold parseSigComputeChallenges
  rw [if_neg hne, hp]; rfl

/-- C22, converse: whatever is read is a consistent tree for the proposition. -/
theorem C22_parsed_consistent (sb : SigmaBoolean G) (hb : sb.Bounded) (bs : Bytes) (t : Unchecked G q)
    (h : parseSigComputeChallenges sb bs = .ok t) : Consistent sb t := by
  unfold parseSigComputeChallenges at h
  split at h
  · cases h
  · rw [Outcome.bind_eq_ok] at h
    obtain ⟨⟨t', r⟩, h1, h3⟩ := h
    simp only [Outcome.pure_eq, Outcome.ok.injEq] at h3
    subst h3
    exact (parse_inv sb hb _ _ _ _ h1).1

/-- A consistent tree for a proposition with all kinds of nodes: the one read from the toy proof. -/
example : ∃ t : Unchecked (ZMod 3) 3, toyProp.Bounded ∧ Consistent toyProp t := by
  have hb : toyProp.Bounded := by simp [toyProp, SigmaBoolean.Bounded, SigmaBoolean.BoundedList]
  have h : (match (generateProof toyProver toyProp [7] >>= fun bs => parseSigComputeChallenges (q := 3) toyProp bs) with
    | .ok _ => true | _ => false) = true := by decide +kernel
  cases hx : (generateProof toyProver toyProp [7] >>= fun bs => parseSigComputeChallenges (q := 3) toyProp bs) with
  | ok t =>
    rw [Outcome.bind_eq_ok] at hx
    obtain ⟨bs, _, h2⟩ := hx
    exact ⟨t, hb, C22_parsed_consistent toyProp hb bs t h2⟩
  | err => rw [hx] at h; cases h
  | panic => rw [hx] at h; cases h

/-! ## C23 -/

/-- C23: if a proof is accepted, the bytes encode a tree for the proposition whose challenges are distributed as the
protocol demands, whose leaf commitments satisfy the verification equations, and whose root challenge is the hash of
the tree with its commitments followed by the message. -/
theorem C23_sound (C : Curve G) (hone : C.codec.one = 0) (sb : SigmaBoolean G) (hb : sb.Bounded) (hnt : nontrivial sb)
    (message signature : Bytes) (h : verifySignature q C sb message signature = .ok true) :
    ∃ (t : Unchecked G q) (bs : Bytes), Consistent sb t ∧ AllValid C.gen t ∧ fsUnchecked C.codec t = .ok bs ∧
      t.challenge = fsHash C.hash (bs ++ message) ∧
      parseSigComputeChallenges sb signature = .ok (clearCommitments t) := by
  have hne : signature ≠ [] := by
    rintro rfl
    rw [verify_nontrivial C sb hnt, if_pos rfl] at h; cases h
  obtain ⟨t, bs, h1, h2, h3, h4, rest, h5⟩ := verify_sound C hone sb hb hnt message signature h
  refine ⟨t, bs, h1, h2, h3, h4, ?_⟩
  unfold parseSigComputeChallenges
  rw [if_neg hne, h5]; rfl

/-- C23, converse: every such tree has proof bytes that are accepted. -/
theorem C23_complete [NeZero q] (hq : q ≤ 2 ^ 256) (C : Curve G) (hone : C.codec.one = 0) (sb : SigmaBoolean G)
    (hb : sb.Bounded) (message : Bytes) (t : Unchecked G q) (hc : Consistent sb t) (hv : AllValid C.gen t) (bs : Bytes)
    (hfs : fsUnchecked C.codec t = .ok bs) (hch : t.challenge = fsHash C.hash (bs ++ message)) :
    ∃ sig, serializeSig t = .ok sig ∧ verifySignature q C sb message sig = .ok true := by
  obtain ⟨sig, h1, h2⟩ := verify_complete hq C hone sb hb message t hc hv bs hfs hch
  exact ⟨sig, h1, by simpa using h2 []⟩

/-- C23: a false constant is never accepted and a non-constant proposition never with an empty proof. -/
theorem C23_empty (C : Curve G) (sb : SigmaBoolean G) (message : Bytes) :
    (∀ sig, verifySignature q C (.trivial false) message sig = .ok false) ∧
      (nontrivial sb → verifySignature q C sb message [] = .ok false) :=
  ⟨fun _ => rfl, fun h => by rw [verify_nontrivial C sb h, if_pos rfl]⟩

/-- An accepted proof, and the same proof with one byte changed, which is not. -/
example : toyProp.Bounded ∧ nontrivial toyProp ∧ ∃ sig, verifySignature 3 toyCurve toyProp [7] sig = .ok true ∧
    verifySignature 3 toyCurve toyProp [7] (sig.set 100 0xAA#8) = .ok false := by
  refine ⟨by simp [toyProp, SigmaBoolean.Bounded, SigmaBoolean.BoundedList], trivial,
    (match generateProof toyProver toyProp [7] with | .ok s => s | _ => []), by decide +kernel, by decide +kernel⟩

/-- Finding for C23: bytes after the proof are ignored, so every accepted proof can be extended (for every curve, every
proposition and message). -/
theorem C23_malleable [NeZero q] (hq : q ≤ 2 ^ 256) (E : ProverEnv G q) (hh : E.hints = []) (hone : E.curve.codec.one = 0)
    (hs : SecretsOk E.secrets) (sb : SigmaBoolean G) (hnt : NoTrivial sb) (hb : sb.Bounded) (hthr : ThrOk sb) (hod : OrDistinct sb)
    (hk : holds (provableWith E.curve.gen E.secrets) sb = true) (message : Bytes) :
    ∃ sig, generateProof E sb message = .ok sig ∧ ∀ rest, verifySignature q E.curve sb message (sig ++ rest) = .ok true := by
  rw [← secretsKnow_eq E.curve hone] at hk
  exact prover_complete E hq hh hone hs sb hnt hb hthr hod hk message

/-- Finding for C23: a response that is not reduced modulo the group order is accepted like the reduced one. -/
theorem C23_unreduced_response : ∃ (sb : SigmaBoolean (ZMod 3)) (message sig sig' : Bytes), sig ≠ sig' ∧
    sig.length = sig'.length ∧ verifySignature 3 toyCurve sb message sig = .ok true ∧
    verifySignature 3 toyCurve sb message sig' = .ok true := by
  refine ⟨.dlog 2, [7], (match generateProof toyProver (.dlog 2) [7] with | .ok s => s | _ => []),
    (match generateProof toyProver (.dlog 2) [7] with | .ok s => s.take 24 ++ natBe 32 (beNat (s.drop 24) + 3) | _ => []),
    by decide +kernel, by decide +kernel, by decide +kernel, by decide +kernel⟩

/-- Finding for C23: a threshold that asks for more children than it has makes the verifier panic on every long enough
proof (an unsigned subtraction underflows). -/
theorem C23_threshold_panic (C : Curve G) (k : Byte) (items : List (SigmaBoolean G)) (hk : items.length < k.toNat)
    (message sig : Bytes) (hsig : 24 ≤ sig.length) : verifySignature q C (.cth k items) message sig = .panic := by
  have hne : sig ≠ [] := by rintro rfl; simp at hsig
  rw [verify_nontrivial C (.cth k items) (by simp [nontrivial]), if_neg hne]
  unfold parseSigComputeChallenges
  rw [if_neg hne, parseSig, theChallenge, readChallenge, dif_pos hsig, Outcome.bind_ok]
  simp only [readPoly, if_pos hk]
  rfl

end

/-! ## C24 -/

section
variable {G : Type} [DecidableEq G] {q : Nat} [Fact q.Prime] [AddCommGroup G] [Module (ZMod q) G]

omit [DecidableEq G] in
/-- C24: two valid transcripts of a leaf with the same commitment and different challenges give a secret, by the formula
`(z - z') / (e - e')`.  The group order is at least `2^192`, so different challenges are different scalars. -/
theorem C24_leaf (hq : 2 ^ 192 ≤ q) (gen : G) (p : LeafProp G) (m : Msg G) (e e' : Challenge) (hne : e ≠ e') (z z' : ZMod q)
    (h : LeafValid gen p m e z) (h' : LeafValid gen p m e' z') :
    IsWitness gen p ((z - z') / ((e.toScalar : ZMod q) - e'.toScalar)) := leaf_extract hq gen p m hne z z' h h'

/-- C24 for whole proof trees: two consistent and valid trees for the same proposition with the same commitments and
different root challenges yield, by the same formula at the leaves, secrets that suffice to prove the proposition. -/
theorem C24_tree (hq : 2 ^ 192 ≤ q) (gen : G) (sb : SigmaBoolean G) (hb : sb.Bounded) (t t' : Unchecked G q)
    (hc : Consistent sb t) (hc' : Consistent sb t') (hv : AllValid gen t) (hv' : AllValid gen t') (hs : SameStatement t t')
    (hne : t.challenge ≠ t'.challenge) :
    (∀ x ∈ extract t t', IsWitness gen x.1 x.2) ∧ holds (knownBy (extract t t')) sb = true :=
  ⟨extract_witness hq gen t t' hv hv' hs, special_soundness _ sb hb t t' hc hc' hne (fun _ h => h)⟩

/-- C24 in terms of the verifier: two proofs accepted for the same proposition (possibly under different messages and
hash functions) in which the hashed trees are the same bytes but the root challenges differ yield secrets that suffice
to prove the proposition. -/
theorem C24_accepted (hq : 2 ^ 192 ≤ q) (C C' : Curve G) (hgen : C'.gen = C.gen) (hcodec : C'.codec = C.codec)
    (hone : C.codec.one = 0) (sb : SigmaBoolean G) (hb : sb.Bounded) (hnt : nontrivial sb) (m m' sig sig' : Bytes)
    (h : verifySignature q C sb m sig = .ok true) (h' : verifySignature q C' sb m' sig' = .ok true) :
    ∃ (t t' : Unchecked G q) (bs bs' : Bytes), parseSigComputeChallenges sb sig = .ok (clearCommitments t) ∧
      parseSigComputeChallenges sb sig' = .ok (clearCommitments t') ∧ fsUnchecked C.codec t = .ok bs ∧
      fsUnchecked C.codec t' = .ok bs' ∧
      (bs = bs' → t.challenge ≠ t'.challenge →
        (∀ x ∈ extract t t', IsWitness C.gen x.1 x.2) ∧ holds (knownBy (extract t t')) sb = true) := by
  obtain ⟨t, bs, a1, a2, a3, a4, a5⟩ := C23_sound C hone sb hb hnt m sig h
  obtain ⟨t', bs', b1, b2, b3, b4, b5⟩ := C23_sound C' (by rw [hcodec]; exact hone) sb hb hnt m' sig' h'
  rw [hcodec] at b3
  rw [hgen] at b2
  refine ⟨t, t', bs, bs', a5, b5, a3, b3, fun he hne => ?_⟩
  have hs := (fs_inj C.codec t t' bs bs' [] [] (fits_of_consistent sb t hb a1) (fits_of_consistent sb t' hb b1) a3 b3 (by rw [he])).1
  exact C24_tree hq C.gen sb hb t t' a1 b1 a2 b2 hs hne

end

section
variable {G : Type} [DecidableEq G] {q : Nat} [AddCommGroup G] [Module (ZMod q) G]

/-- C24: simulated transcripts always verify, whatever the challenge and the response. -/
theorem C24_simulated (C : Curve G) (hone : C.codec.one = 0) (p : LeafProp G) (e : Challenge) (z : ZMod q) :
    LeafValid C.gen p (simulate C p e z) e z := simulate_valid C hone p e z

/-- C24: for every challenge, the transcripts of the real prover and those of the simulator are the same: the response
is a bijective function of the randomness, and for equal responses the commitments are equal.  (With uniform randomness
both have the same distribution.) -/
theorem C24_indistinguishable (C : Curve G) (hone : C.codec.one = 0) (p : LeafProp G) (w : ZMod q) (hw : IsWitness C.gen p w)
    (e : Challenge) : Function.Bijective (fun r => secondMessage w r e) ∧
      ∀ r, (simulate C p e (secondMessage w r e), secondMessage w r e) = (firstMessage C p r, secondMessage w r e) :=
  ⟨secondMessage_bijective w e, fun r => by rw [simulate_eq_real C hone p w r hw e]⟩

end

/-- The hypotheses of the C24 theorems can be met: an AND of two leaves over a group of prime order above `2^192`,
answered for two challenges. -/
example : ∃ (q : Nat) (_ : Fact q.Prime), 2 ^ 192 ≤ q ∧ ∃ (sb : SigmaBoolean (ZMod q)) (t t' : Unchecked (ZMod q) q),
    sb.Bounded ∧ Consistent sb t ∧ Consistent sb t' ∧ AllValid 1 t ∧ AllValid 1 t' ∧ SameStatement t t' ∧
      t.challenge ≠ t'.challenge ∧ (extract t t').length = 2 := by
  obtain ⟨q, hq, hp⟩ := Nat.exists_infinite_primes (2 ^ 192)
  refine ⟨q, ⟨hp⟩, hq, ?_⟩
  haveI : Fact q.Prime := ⟨hp⟩
  let e : Challenge := zeroChallenge
  let e' : Challenge := ⟨List.replicate 23 0#8 ++ [1#8], rfl⟩
  have he : (e.toScalar : ZMod q) = 0 := by
    have : beNat e.1 = 0 := by decide +kernel
    unfold Challenge.toScalar; rw [this]; simp
  have he' : (e'.toScalar : ZMod q) = 1 := by
    have : beNat e'.1 = 1 := by decide +kernel
    unfold Challenge.toScalar; rw [this]; simp
  have hne : e ≠ e' := by decide +kernel
  refine ⟨.cand [.dlog 5, .dht 1 2 3 6],
    .conj .and e [.leaf (.dlog 5) (some (.dlog 7)) e 7, .leaf (.dht 1 2 3 6) (some (.dht 4 8)) e 4],
    .conj .and e' [.leaf (.dlog 5) (some (.dlog 7)) e' 12, .leaf (.dht 1 2 3 6) (some (.dht 4 8)) e' 7],
    ?_, ?_, ?_, ?_, ?_, ?_, hne, ?_⟩
  · simp [SigmaBoolean.Bounded, SigmaBoolean.BoundedList]
  · refine ⟨?_, rfl, rfl, trivial⟩
    intro c hc; simp at hc; rcases hc with rfl | rfl <;> rfl
  · refine ⟨?_, rfl, rfl, trivial⟩
    intro c hc; simp at hc; rcases hc with rfl | rfl <;> rfl
  · refine ⟨⟨_, rfl, ?_⟩, ⟨_, rfl, ?_⟩, trivial⟩ <;> simp only [LeafValid, he, smul_eq_mul] <;> norm_num
  · refine ⟨⟨_, rfl, ?_⟩, ⟨_, rfl, ?_⟩, trivial⟩ <;> simp only [LeafValid, he', smul_eq_mul] <;> norm_num
  · exact ⟨trivial, ⟨rfl, rfl⟩, ⟨rfl, rfl⟩, trivial⟩
  · simp [extract, extractList, hne]

/-- A leaf of the toy group with its secret, as `C24_indistinguishable` and `C24_simulated` require. -/
example : toyCurve.codec.one = 0 ∧ IsWitness toyCurve.gen (.dht 1 2 2 1 : LeafProp (ZMod 3)) (2 : ZMod 3) := by
  refine ⟨rfl, ?_⟩
  show (2 : ZMod 3) = (2 : ZMod 3) • (1 : ZMod 3) ∧ (1 : ZMod 3) = (2 : ZMod 3) • (2 : ZMod 3)
  decide

/-! ## C25 -/

section
variable {G : Type} [DecidableEq G] {q : Nat}

/-- C25: the bytes that are hashed determine connectives, threshold parameters, leaf propositions, leaf commitments and
the message: two trees (with at most 65535 children per node) with the same hash input are the same statement. -/
theorem C25_injective (pc : PointCodec G) (t t' : Unchecked G q) (hf : ChildCountsFit t) (hf' : ChildCountsFit t')
    (bs bs' m m' : Bytes) (h : fsUnchecked pc t = .ok bs) (h' : fsUnchecked pc t' = .ok bs') (he : bs ++ m = bs' ++ m') :
    SameStatement t t' ∧ m = m' := fs_inj pc t t' bs bs' m m' hf hf' h h' he

/-- C25 for the challenge itself: equal challenges mean the same statement and the same message, or two distinct inputs
with the same truncated hash have been found. -/
theorem C25_challenge (H : HashFn) (pc : PointCodec G) (t t' : Unchecked G q) (hf : ChildCountsFit t)
    (hf' : ChildCountsFit t') (bs bs' m m' : Bytes) (h : fsUnchecked pc t = .ok bs) (h' : fsUnchecked pc t' = .ok bs')
    (he : fsHash H (bs ++ m) = fsHash H (bs' ++ m')) :
    (SameStatement t t' ∧ m = m') ∨ (bs ++ m ≠ bs' ++ m' ∧ (H (bs ++ m)).take 24 = (H (bs' ++ m')).take 24) := by
  by_cases hx : bs ++ m = bs' ++ m'
  · exact Or.inl (C25_injective pc t t' hf hf' bs bs' m m' h h' hx)
  · exact Or.inr ⟨hx, congrArg Subtype.val he⟩

/-- The condition on child counts holds for every tree of a bounded proposition. -/
theorem C25_counts_fit (sb : SigmaBoolean G) (hb : sb.Bounded) (t : Unchecked G q) (hc : Consistent sb t) : ChildCountsFit t :=
  fits_of_consistent sb t hb hc

/-- Two trees that meet the hypotheses and differ only in a response. -/
example : ∃ t t' : Unchecked (ZMod 3) 3, ∃ bs, ChildCountsFit t ∧ ChildCountsFit t' ∧ t ≠ t' ∧
    fsUnchecked toyCurve.codec t = .ok bs ∧ fsUnchecked toyCurve.codec t' = .ok bs :=
  ⟨.conj .and zeroChallenge [.leaf (.dlog 1) (some (.dlog 2)) zeroChallenge 1, .leaf (.dlog 2) (some (.dlog 0)) zeroChallenge 1],
    .conj .and zeroChallenge [.leaf (.dlog 1) (some (.dlog 2)) zeroChallenge 2, .leaf (.dlog 2) (some (.dlog 0)) zeroChallenge 1],
    _, by simp [ChildCountsFit, ChildCountsFitList], by simp [ChildCountsFit, ChildCountsFitList], by simp; decide, rfl, rfl⟩

end

end Verif
