import Verif.Proofs.JsonHintRead
import Verif.Props.MultiSig

set_option linter.unusedSimpArgs false
set_option linter.unusedVariables false

/-!
# C77: propositions and hints as JSON
-/

namespace Verif
open Verif.Sigma Verif.Spec Verif.Json

section
variable {G : Type} [DecidableEq G] {q : Nat}

/-- C77: every proposition comes back from its JSON form, whatever its size. -/
theorem C77_proposition_roundtrip (pc : PointCodec G) (sb : SigmaBoolean G) (hb : sb.Bounded) :
    readSB pc (writeSB pc sb) = .ok sb := readSB_write pc sb hb

/-- Non-trivial case. -/
example : toyProp.Bounded ∧ readSB toyCurve.codec (writeSB toyCurve.codec toyProp) = .ok toyProp := by
  have hb : toyProp.Bounded := by simp [toyProp, SigmaBoolean.Bounded, SigmaBoolean.BoundedList]
  exact ⟨hb, readSB_write _ _ hb⟩

/-- C77: whatever the reader of propositions accepts can be used, written and read again: connectives have 2 to 255 children.  The
reader never panics. -/
theorem C77_proposition_reads (pc : PointCodec G) (j : Json) :
    readSB pc j ≠ .panic ∧ ∀ sb, readSB pc j = .ok sb → sb.Bounded ∧ readSB pc (writeSB pc sb) = .ok sb :=
  ⟨readSB_np pc j, fun sb h => ⟨readSB_bounded pc h, readSB_write pc sb (readSB_bounded pc h)⟩⟩

/-- Non-trivial case: a proposition with the fields in another order and one more. -/
example : readSB toyCurve.codec (.obj [(kArgs, .arr [writeSB toyCurve.codec (.dlog 2), writeSB toyCurve.codec (.trivial false)]),
    (kPosition, .null), (kOp, .str tOr)]) = .ok (.cor [.dlog 2, .trivial false]) := by
  rw [readSB]
  show (readSBs toyCurve.codec [writeSB toyCurve.codec (.dlog 2), writeSB toyCurve.codec (.trivial false)] >>= fun items =>
    sbItems items >>= fun items => (pure (SigmaBoolean.cor items) : Outcome _)) = _
  rw [show [writeSB toyCurve.codec (.dlog 2), writeSB toyCurve.codec (.trivial false)] =
    writeSBs toyCurve.codec [.dlog 2, .trivial false] from rfl, readSBs_write _ _ (by simp [SigmaBoolean.BoundedList, SigmaBoolean.Bounded])]
  rfl

/-- C77: the position of a node comes back from its text, and what is read is a position of a node. -/
theorem C77_position (pos : Position) (j : Json) :
    (GoodPos pos → readPos (.str (writePos pos)) = .ok pos) ∧ (readPos j = .ok pos → GoodPos pos) :=
  ⟨readPosJ pos, readPos_spec⟩

/-- Non-trivial case: the text of the position. -/
example : GoodPos [0, 12, 3] ∧ writePos [0, 12, 3] = ['0', '-', '1', '2', '-', '3'] := by
  refine ⟨⟨by simp, by simp⟩, ?_⟩
  simp only [writePos]
  have h0 : decimal 0 = ['0'] := by unfold decimal; rfl
  have h1 : decimal 12 = ['1', '2'] := by unfold decimal; simp; unfold decimal; rfl
  have h3 : decimal 3 = ['3'] := by unfold decimal; rfl
  rw [h0, h1, h3]; rfl

section
variable [AddCommGroup G] [Module (ZMod q) G] [NeZero q]

/-- C77: a hint can be written and read; it comes back unchanged, except for the commitments inside the tree of a proof, which are not
part of the text. -/
theorem C77_hint_roundtrip (hq : q ≤ 2 ^ 256) (pc : PointCodec G) (h : Hint G q) (hg : GoodHint h) :
    ∃ j, writeHint pc h = .ok j ∧ readHint pc j = .ok (forgetHint h) := hint_rt hq pc h hg

/-- Non-trivial case: a commitment with its secret, for a Diffie-Hellman tuple. -/
example : GoodHint (.ownCommitment (.dht 1 2 2 1) 2 (.dht 0 1) [0, 3] : Hint (ZMod 3) 3) ∧
    forgetHint (.ownCommitment (.dht 1 2 2 1) 2 (.dht 0 1) [0, 3] : Hint (ZMod 3) 3) = .ownCommitment (.dht 1 2 2 1) 2 (.dht 0 1) [0, 3] :=
  ⟨⟨trivial, by simp, by simp⟩, rfl⟩

/-- C77: every hint read is a hint of the library — for a proposition with 2 to 255 children per connective, with a proof whose
challenges are distributed as the proposition demands, at a node position — and writing and reading it again gives the same. -/
theorem C77_hint_reads (hq : q ≤ 2 ^ 256) (pc : PointCodec G) (j : Json) (h : Hint G q) (hj : readHint pc j = .ok h) :
    GoodHint h ∧ ∃ j', writeHint pc h = .ok j' ∧ readHint pc j' = .ok h := by
  obtain ⟨h1, h2⟩ := readHint_spec pc hj
  refine ⟨h1, ?_⟩
  have := hint_rt hq pc h h1
  rwa [h2] at this

/-- Non-trivial case. -/
example : readHint (q := 3) toyCurve.codec (.obj [(kPosition, .str ['0', '-', '1']), (kType, .str vDlog),
    (kA, writePoint toyCurve.codec 2), (kPubkey, writeSB toyCurve.codec (.dlog 1)), (kHint, .str vCmtReal)]) =
    .ok (.realCommitment (.dlog 1) (.dlog 2) [0, 1]) := by
  have hm : readMsg toyCurve.codec [(kPosition, .str ['0', '-', '1']), (kType, .str vDlog),
    (kA, writePoint toyCurve.codec 2), (kPubkey, writeSB toyCurve.codec (.dlog 1)), (kHint, .str vCmtReal)] = .ok (.dlog 2) :=
    readMsg_of toyCurve.codec (m := .dlog 2) ⟨rfl, rfl⟩
  refine (readHint_cmt (q := 3) toyCurve.codec rfl (by decide) (by decide) rfl (readSB_write _ _ (by trivial)) hm rfl
    (pos := [0, 1]) (by with_unfolding_all rfl)).trans ?_
  rw [if_neg (by decide), if_pos rfl]
  rfl

/-- C77: the prover makes the same proof, byte for byte, or fails in the same way, from hints sent as JSON as from the hints
themselves.  Nothing that matters for signing is lost in the text, for every proposition, message, set of secrets and randomness. -/
theorem C77_same_proof (hq : q ≤ 2 ^ 256) (E : ProverEnv G q) (hg : ∀ h ∈ E.hints, GoodHint h) (sb : SigmaBoolean G) (message : Bytes) :
    ∃ hs, viaJson E.curve.codec E.hints = .ok hs ∧ generateProof { E with hints := hs } sb message = generateProof E sb message :=
  ⟨_, viaJson_ok hq E.curve.codec E.hints hg, generateProof_forget E sb message⟩

/-- Non-trivial case: a proof hint whose tree carries a commitment. -/
example : ∀ h ∈ ([.realProof (.dlog 1) (fsHash sumHash [1]) (.leaf (.dlog 1) (some (.dlog 2)) (fsHash sumHash [1]) 2) [0, 1],
    .realCommitment (.dlog 1) (.dlog 2) [0, 1]] : List (Hint (ZMod 3) 3)), GoodHint h := by
  intro h hh
  simp only [List.mem_cons, List.not_mem_nil, or_false] at hh
  rcases hh with rfl | rfl
  · exact ⟨trivial, rfl, by simp, by simp⟩
  · exact ⟨trivial, by simp, by simp⟩

omit [NeZero q] in
/-- C77: the hints the library makes for a proposition — commitments for keys, and everything extracted from a proof — are such hints. -/
theorem C77_library_hints (C : Curve G) (sb : SigmaBoolean G) (hb : sb.Bounded) :
    (∀ (r : Position → ZMod q) (keys : List (SigmaBoolean G)), ∀ h ∈ generateCommitmentsFor C r sb keys, GoodHint h) ∧
    (∀ (real sim : List (SigmaBoolean G)) (proof : Bytes) (hs : List (Hint G q)), bagForMultiSig C sb real sim proof = .ok hs →
      ∀ h ∈ hs, GoodHint h) :=
  ⟨fun r keys => commitments_good C r sb hb keys, fun real sim proof hs h => bag_good C sb hb real sim proof hs h⟩

/-- Non-trivial case: hints are extracted from a proof of a nested proposition. -/
example : (generateProof toyProver toyProp [7, 7] >>= fun proof =>
    bagForMultiSig (q := 3) toyCurve toyProp [.dlog 2] [.dlog 1] proof >>= fun hs => .ok hs.length) = .ok 6 := by decide +kernel

/-- C77: the bag of a transaction comes back for every input, whatever the order in which the hash maps are written. -/
theorem C77_bag_roundtrip (hq : q ≤ 2 ^ 256) (pc : PointCodec G) (ord : List (Text × Json) → List (Text × Json)) (ho : IsOrder ord)
    (b : TxHints G q) (hb : GoodBag b) : ∃ j b', writeTxHints pc ord b = .ok j ∧ readTxHints pc j = .ok b' ∧
      ∀ i, b'.allFor i = (b.allFor i).map forgetHint := by
  obtain ⟨j, b', h1, h2, h3, h4⟩ := txHints_rt hq pc ord ho b hb
  refine ⟨j, b', h1, h2, fun i => ?_⟩
  unfold TxHints.allFor
  rw [h3, h4, List.map_append]
  cases b.secretHints.get i <;> cases b.publicHints.get i <;> rfl

/-- Non-trivial case: hints for two inputs, written in reverse order. -/
example : GoodBag (⟨[(0, [.realProof (.dlog 1) (fsHash sumHash [1]) (.leaf (.dlog 1) none (fsHash sumHash [1]) 2) [0, 1]])],
      [(5, [.realCommitment (.dlog 1) (.dlog 2) [0, 1]]), (0, [.ownCommitment (.dlog 1) 2 (.dlog 2) [0]])]⟩ : TxHints (ZMod 3) 3) ∧
    IsOrder List.reverse := by
  refine ⟨⟨by simp [FMap.Ok], by simp [FMap.Ok], by simp, by simp, ?_, ?_⟩, fun l => List.reverse_perm l⟩
  · intro p hp h hh
    simp only [List.mem_singleton] at hp; subst hp
    simp only [List.mem_singleton] at hh; subst hh
    exact ⟨trivial, rfl, by simp, by simp⟩
  · intro p hp h hh
    simp only [List.mem_cons, List.not_mem_nil, or_false] at hp
    rcases hp with rfl | rfl
    · simp only [List.mem_singleton] at hh; subst hh
      exact ⟨trivial, by simp, by simp⟩
    · simp only [List.mem_singleton] at hh; subst hh
      exact ⟨trivial, by simp, by simp⟩

theorem signInTurnJson_eq (hq : q ≤ 2 ^ 256) (C : Curve G) (sb : SigmaBoolean G) (hb : sb.Bounded)
    (arrange : List (Hint G q) → List (Hint G q)) (harr : ∀ l, (arrange l).Perm l) (message : Bytes) (ann : List (Hint G q))
    (hann : ∀ h ∈ ann, GoodHint h) : ∀ (ss : List (Signer G q)) (done : List (SigmaBoolean G)) (ex : List (Hint G q)),
    (∀ h ∈ ex, GoodHint h) → signInTurnJson C arrange sb message ann done ex ss = signInTurn C arrange sb message ann done ex ss
  | [], _, _, _ => rfl
  | s :: rest, done, ex, hex => by
    have hg : ∀ h ∈ arrange (s.commitments C sb ++ ann ++ ex), GoodHint h := by
      intro h hh
      rw [(harr _).mem_iff, List.mem_append, List.mem_append] at hh
      rcases hh with (hh | hh) | hh
      · exact commitments_good C _ sb hb _ h hh
      · exact hann h hh
      · exact hex h hh
    obtain ⟨hs, h1, h2⟩ := C77_same_proof hq ⟨C, s.secrets, arrange (s.commitments C sb ++ ann ++ ex), s.rnd⟩ hg sb message
    simp only at h1 h2
    cases rest with
    | nil =>
      rw [signInTurnJson, signInTurn, h1, Outcome.bind_ok, h2]
    | cons t rest =>
      rw [signInTurnJson, signInTurn, h1, Outcome.bind_ok, h2]
      cases generateProof ⟨C, s.secrets, arrange (s.commitments C sb ++ ann ++ ex), s.rnd⟩ sb message with
      | err => rfl
      | panic => rfl
      | ok sig =>
        simp only [Outcome.bind_ok]
        cases hbag : bagForMultiSig (q := q) C sb (done ++ s.images C) [] sig with
        | err => rfl
        | panic => rfl
        | ok ex' =>
          simp only [Outcome.bind_ok]
          exact signInTurnJson_eq hq C sb hb arrange harr message ann hann (t :: rest) _ ex' (bag_good C sb hb _ _ sig ex' hbag)

/-- C77 with C63: several signers who send each other all hints as JSON get, turn by turn, the same signatures as if they
shared memory; so for an AND proposition whose keys they hold, all turns succeed and the last signature is accepted. -/
theorem C77_session (hq : q ≤ 2 ^ 256) (C : Curve G) (hone : C.codec.one = 0) (sb : SigmaBoolean G) (hb : sb.Bounded)
    (ha : AndOnly sb) (ss : List (Signer G q)) (hne : ss ≠ [])
    (hone_owner : ∀ s ∈ ss, ∀ t ∈ ss, ∀ x ∈ leaves sb, x.1.toSB ∈ s.images C → x.1.toSB ∈ t.images C → s = t)
    (hcov : ∀ x ∈ leaves sb, ∃ s ∈ ss, x.1.toSB ∈ s.images C) (hok : ∀ s ∈ ss, SecretsOk s.secrets)
    (arrange : List (Hint G q) → List (Hint G q)) (harr : ∀ l, (arrange l).Perm l) (message : Bytes) :
    ∃ sig, signInTurnJson C arrange sb message (announced C sb ss) [] [] ss = .ok sig ∧ verifySignature q C sb message sig = .ok true := by
  have hann : ∀ h ∈ announced C sb ss, GoodHint h := by
    intro h hh
    obtain ⟨s, _, h2⟩ := List.mem_flatMap.1 hh
    exact commitments_good C _ sb hb _ h (List.mem_filter.1 h2).1
  rw [signInTurnJson_eq hq C sb hb arrange harr message _ hann ss [] [] (by intro h hh; cases hh)]
  exact C63_session hq C hone sb hb ha ss hne hone_owner hcov hok arrange harr message

/-- Non-trivial case: the session of C63, with its hypotheses shown there, sent as JSON. -/
example : signInTurnJson toyCurve List.reverse toyJoint [7, 7] (announced toyCurve toyJoint toySigners) [] [] toySigners =
    signInTurn toyCurve List.reverse toyJoint [7, 7] (announced toyCurve toyJoint toySigners) [] [] toySigners := by
  have hb : toyJoint.Bounded := by simp [toyJoint, SigmaBoolean.Bounded, SigmaBoolean.BoundedList]
  refine signInTurnJson_eq (by norm_num) toyCurve toyJoint hb List.reverse (fun l => List.reverse_perm l) [7, 7] _ ?_ toySigners [] []
    (by intro h hh; cases hh)
  intro h hh
  obtain ⟨s, _, h2⟩ := List.mem_flatMap.1 hh
  exact commitments_good toyCurve _ toyJoint hb _ h (List.mem_filter.1 h2).1

end

/-! ## Texts that are not as they should be -/

/-- C77: the reader of hints panics only on a hint for a proposition with a threshold that asks for more children than it has. -/
theorem C77_panics_partial (pc : PointCodec G) (j : Json) (h : readHint (q := q) pc j = .panic) :
    ∃ o jp i, j = .obj o ∧ req [kPubkey] o = .ok jp ∧ readSB pc jp = .ok i ∧ ¬ThresholdsFit i := readHint_panic pc h

/-- Finding for C77: and on such a proposition every proof hint with at least 24 bytes of proof makes it panic: the reader of
propositions does not compare a threshold with the number of its children. -/
theorem C77_threshold_panic (pc : PointCodec G) (k : Byte) (items : List (SigmaBoolean G)) (hb : (SigmaBoolean.cth k items).Bounded)
    (hk : items.length < k.toNat) (e : Challenge) (pos : Position) (hp : GoodPos pos) (proof : Bytes) (hl : 24 ≤ proof.length) :
    readHint (q := q) pc (.obj [(kHint, .str vProofReal), (kPubkey, writeSB pc (.cth k items)), (kChallenge, .str (hexEnc e.1)),
      (kProof, .str (hexEnc proof)), (kPosition, .str (writePos pos))]) = .panic := by
  have h5 : parseSigComputeChallenges (q := q) (.cth k items) proof = .panic := by
    unfold parseSigComputeChallenges
    rw [if_neg (by intro h; rw [h] at hl; simp at hl), parseSig, theChallenge, readChallenge, dif_pos hl]
    simp only [Outcome.bind_ok]
    rw [readPoly, if_pos hk]
    rfl
  have hr : readProven (q := q) pc [(kHint, .str vProofReal), (kPubkey, writeSB pc (.cth k items)), (kChallenge, .str (hexEnc e.1)),
      (kProof, .str (hexEnc proof)), (kPosition, .str (writePos pos))] = .panic := by
    unfold readProven
    have f1 : (req [kPubkey] [(kHint, Json.str vProofReal), (kPubkey, writeSB pc (.cth k items)), (kChallenge, .str (hexEnc e.1)),
      (kProof, .str (hexEnc proof)), (kPosition, .str (writePos pos))]) = .ok (writeSB pc (.cth k items)) := rfl
    have f2 : (req [kChallenge] [(kHint, Json.str vProofReal), (kPubkey, writeSB pc (.cth k items)), (kChallenge, .str (hexEnc e.1)),
      (kProof, .str (hexEnc proof)), (kPosition, .str (writePos pos))]) = .ok (.str (hexEnc e.1)) := rfl
    have f3 : (req [kProof] [(kHint, Json.str vProofReal), (kPubkey, writeSB pc (.cth k items)), (kChallenge, .str (hexEnc e.1)),
      (kProof, .str (hexEnc proof)), (kPosition, .str (writePos pos))]) = .ok (.str (hexEnc proof)) := rfl
    have f4 : (req [kPosition] [(kHint, Json.str vProofReal), (kPubkey, writeSB pc (.cth k items)), (kChallenge, .str (hexEnc e.1)),
      (kProof, .str (hexEnc proof)), (kPosition, .str (writePos pos))]) = .ok (.str (writePos pos)) := rfl
    simp only [f1, f2, f3, f4, Outcome.bind_ok, readSB_write pc _ hb, readChallengeJ_write, readHex_hex, readPosJ pos hp, h5,
      Outcome.bind_panic]
  rw [readHint]
  have f0 : (req [kHint] [(kHint, Json.str vProofReal), (kPubkey, writeSB pc (.cth k items)), (kChallenge, .str (hexEnc e.1)),
      (kProof, .str (hexEnc proof)), (kPosition, .str (writePos pos))] >>= readStr) = .ok vProofReal := rfl
  rw [f0, Outcome.bind_ok, if_pos rfl, hr]
  rfl

/-- Non-trivial case: three of two. -/
example : (SigmaBoolean.cth 3 [.dlog (1 : ZMod 3), .dlog 2]).Bounded ∧ [SigmaBoolean.dlog (1 : ZMod 3), .dlog 2].length < (3 : Byte).toNat ∧
    GoodPos [0, 1] := by
  refine ⟨by simp [SigmaBoolean.Bounded, SigmaBoolean.BoundedList], by decide, by simp, by simp⟩

/-- Finding for C77: the tag of a constant proposition does not matter: the one for "false" with the condition `true` is read as true,
and the other way round. -/
theorem C77_condition_violates (pc : PointCodec G) (b : Bool) :
    readSB pc (.obj [(kOp, .str tFalse), (kCondition, .bool b)]) = .ok (.trivial b) ∧
    readSB pc (.obj [(kOp, .str tTrue), (kCondition, .bool b)]) = .ok (.trivial b) := by
  constructor <;> (rw [readSB]; rfl)

/-- Finding for C77: the empty position is written as the empty text, which is not read. -/
theorem C77_empty_position_violates : readPos (.str (writePos [])) = .err := rfl

/-- Finding for C77: bytes behind a point are ignored, so that a public key has many texts. -/
theorem C77_point_trailing_violates (pc : PointCodec G) (h : G) (rest : Bytes) :
    readSB pc (.obj [(kOp, .str tDlog), (kH, .str (hexEnc (putPoint pc h ++ rest)))]) = .ok (.dlog h) := by
  have hp : readPoint pc (.str (hexEnc (putPoint pc h ++ rest))) = .ok h := by
    unfold readPoint
    rw [readHex_hex, Outcome.bind_ok, getPoint_putPoint]
    rfl
  rw [readSB]
  show (readPoint pc (.str (hexEnc (putPoint pc h ++ rest))) >>= fun h => (pure (SigmaBoolean.dlog h) : Outcome _)) = _
  rw [hp]; rfl

/-- Finding for C77: so are bytes behind a proof. -/
theorem C77_proof_trailing_violates [AddCommGroup G] [Module (ZMod q) G] [NeZero q] (hq : q ≤ 2 ^ 256) (pc : PointCodec G)
    (i : SigmaBoolean G) (e : Challenge) (t : Unchecked G q) (pos : Position) (hg : GoodHint (.realProof i e t pos)) :
    ∃ bs, serializeSig t = .ok bs ∧ ∀ rest, readHint pc (.obj [(kHint, .str vProofReal), (kPubkey, writeSB pc i),
      (kChallenge, .str (hexEnc e.1)), (kProof, .str (hexEnc (bs ++ rest))), (kPosition, .str (writePos pos))]) =
      .ok (.realProof i e (clearCommitments t) pos) := by
  obtain ⟨hb, hc, hp⟩ := hg
  obtain ⟨bs, h1, h2⟩ := C22_roundtrip hq i hb t hc
  refine ⟨bs, h1, fun rest => ?_⟩
  have hr := readProven_of pc (o := [(kHint, .str vProofReal), (kPubkey, writeSB pc i), (kChallenge, .str (hexEnc e.1)),
    (kProof, .str (hexEnc (bs ++ rest))), (kPosition, .str (writePos pos))]) rfl (readSB_write pc i hb) rfl (readChallengeJ_write e) rfl
    (readHex_hex (bs ++ rest)) rfl (readPosJ pos hp) (h2 rest)
  rw [readHint]
  have ht : (req [kHint] [(kHint, Json.str vProofReal), (kPubkey, writeSB pc i), (kChallenge, .str (hexEnc e.1)),
    (kProof, .str (hexEnc (bs ++ rest))), (kPosition, .str (writePos pos))] >>= readStr) = .ok vProofReal := rfl
  rw [ht, Outcome.bind_ok, if_pos rfl, hr]
  rfl

/-- Non-trivial case: see the example beside `C77_same_proof`. -/
example : GoodHint (.realProof (.dlog 1) (fsHash sumHash [1]) (.leaf (.dlog 1) (some (.dlog 2)) (fsHash sumHash [1]) 2) [0, 1] :
    Hint (ZMod 3) 3) := ⟨trivial, rfl, by simp, by simp⟩

/-- Finding for C77: a secret number that is not below the group order is not refused but reduced: two texts, one secret. -/
theorem C77_secret_violates [NeZero q] (hq : q < 2 ^ 256) : ∃ b b' : Bytes, b ≠ b' ∧
    readWscalar (q := q) (.str (hexEnc b)) = .ok 0 ∧ readWscalar (q := q) (.str (hexEnc b')) = .ok 0 := by
  have hpow : (256 : Nat) ^ 32 = 2 ^ 256 := by norm_num
  have hz : Sigma.beNat (Sigma.natBe 32 0) = 0 := Sigma.beNat_natBe 32 0 (by norm_num)
  have hqv : Sigma.beNat (Sigma.natBe 32 q) = q := Sigma.beNat_natBe 32 q (by omega)
  refine ⟨Sigma.natBe 32 0, Sigma.natBe 32 q, ?_, ?_, ?_⟩
  · intro h
    have := congrArg Sigma.beNat h
    rw [hz, hqv] at this
    exact NeZero.ne q this.symm
  · unfold readWscalar
    rw [readHex_hex, Outcome.bind_ok, if_pos (Sigma.natBe_length _ _), scalarOfBytes, hz]
    simp
  · unfold readWscalar
    rw [readHex_hex, Outcome.bind_ok, if_pos (Sigma.natBe_length _ _), scalarOfBytes, hqv]
    simp

/-- C77: the order of the fields of a hint and of its proposition does not matter. -/
theorem C77_field_order (pc : PointCodec G) (o o' : List (Text × Json)) (h : o.Perm o') :
    readHint (q := q) pc (.obj o) = readHint pc (.obj o') := by
  rw [readHint, readHint]
  unfold readProven readMsg
  simp only [req_perm h]

/-- Non-trivial case. -/
example : ([(kHint, .str vCmtReal), (kType, .str vDlog)] : List (Text × Json)).Perm [(kType, .str vDlog), (kHint, .str vCmtReal)] :=
  List.Perm.swap _ _ _

end
end Verif
