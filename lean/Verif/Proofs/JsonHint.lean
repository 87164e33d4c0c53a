import Verif.Spec.JsonHint
import Verif.Proofs.Json
import Verif.Props.SigmaProtocol

set_option linter.unusedSimpArgs false
set_option linter.unusedVariables false

/-!
# JSON forms of propositions and hints: lemmas
-/

namespace Verif.Json
open Verif Verif.Sigma Verif.Spec

section
variable {G : Type} [DecidableEq G] {q : Nat}

/-! ## Propositions -/

theorem readPoint_write (pc : PointCodec G) (g : G) : readPoint pc (writePoint pc g) = .ok g := by
  have h := getPoint_putPoint pc g []
  rw [List.append_nil] at h
  unfold readPoint writePoint
  rw [readHex_hex, Outcome.bind_ok, h]
  rfl

mutual
theorem readSB_write (pc : PointCodec G) : ∀ (sb : SigmaBoolean G), sb.Bounded → readSB pc (writeSB pc sb) = .ok sb
  | .trivial true, _ => by rw [writeSB, readSB]; rfl
  | .trivial false, _ => by rw [writeSB, readSB]; rfl
  | .dlog h, _ => by
    have := readPoint_write pc h
    rw [writeSB, readSB]
    show (readPoint pc (writePoint pc h) >>= fun h => (pure (SigmaBoolean.dlog h) : Outcome _)) = _
    rw [this]; rfl
  | .dht g h u v, _ => by
    rw [writeSB, readSB]
    show (readPoint pc (writePoint pc g) >>= fun g => readPoint pc (writePoint pc h) >>= fun h =>
      readPoint pc (writePoint pc u) >>= fun u => readPoint pc (writePoint pc v) >>= fun v => (pure (SigmaBoolean.dht g h u v) : Outcome _)) = _
    simp only [readPoint_write]
    rfl
  | .cand l, hb => by
    have := readSBs_write pc l hb.2.2
    rw [writeSB, readSB]
    show (readSBs pc (writeSBs pc l) >>= fun items => sbItems items >>= fun items => (pure (SigmaBoolean.cand items) : Outcome _)) = _
    rw [this, Outcome.bind_ok, sbItems, if_pos ⟨hb.1, hb.2.1⟩]; rfl
  | .cor l, hb => by
    have := readSBs_write pc l hb.2.2
    rw [writeSB, readSB]
    show (readSBs pc (writeSBs pc l) >>= fun items => sbItems items >>= fun items => (pure (SigmaBoolean.cor items) : Outcome _)) = _
    rw [this, Outcome.bind_ok, sbItems, if_pos ⟨hb.1, hb.2.1⟩]; rfl
  | .cth k l, hb => by
    have := readSBs_write pc l hb.2.2
    rw [writeSB, readSB]
    show (readSBs pc (writeSBs pc l) >>= fun items => sbItems items >>= fun items =>
      readUint 256 (.num (.nat k.toNat)) >>= fun k => (pure (SigmaBoolean.cth (BitVec.ofNat 8 k) items) : Outcome _)) = _
    rw [this, Outcome.bind_ok, sbItems, if_pos ⟨hb.1, hb.2.1⟩, Outcome.bind_ok, readUint_nat k.isLt, Outcome.bind_ok, BitVec.ofNat_toNat]
    rfl
theorem readSBs_write (pc : PointCodec G) : ∀ (l : List (SigmaBoolean G)), SigmaBoolean.BoundedList l →
    readSBs pc (writeSBs pc l) = .ok l
  | [], _ => by rw [writeSBs, readSBs]
  | a :: l, hb => by
    rw [writeSBs, readSBs, readSB_write pc a hb.1, Outcome.bind_ok, readSBs_write pc l hb.2]
    rfl
end

/-! ## Positions -/

theorem splitDash_app : ∀ (s rest : Text), '-' ∉ s → splitDash (s ++ '-' :: rest) = s :: splitDash rest
  | [], rest, _ => by simp [splitDash]
  | c :: s, rest, h => by
    have hc : ¬c = '-' := fun e => h (by simp [e])
    rw [List.cons_append, splitDash, if_neg hc, splitDash_app s rest (fun e => h (by simp [e]))]

theorem splitDash_none : ∀ (s : Text), '-' ∉ s → splitDash s = [s]
  | [], _ => rfl
  | c :: s, h => by
    have hc : ¬c = '-' := fun e => h (by simp [e])
    rw [splitDash, if_neg hc, splitDash_none s (fun e => h (by simp [e]))]

theorem decimal_no_dash (n : Nat) : '-' ∉ decimal n := by
  intro h
  have := (decimal_digits n) '-' h
  revert this
  decide

theorem readPos_write : ∀ (pos : Position), GoodPos pos → parseAllUint (splitDash (writePos pos)) = some pos
  | [], h => absurd rfl h.1
  | [n], h => by
    rw [writePos, splitDash_none _ (decimal_no_dash n), parseAllUint, parseUint_decimal (h.2 n (by simp))]
    rfl
  | n :: m :: l, h => by
    rw [writePos, splitDash_app _ _ (decimal_no_dash n), parseAllUint, parseUint_decimal (h.2 n (by simp))]
    simp only [Option.bind_eq_bind, Option.bind_some]
    rw [readPos_write (m :: l) ⟨by simp, fun x hx => h.2 x (by simp [hx])⟩]
    rfl

theorem readPosJ (pos : Position) (h : GoodPos pos) : readPos (.str (writePos pos)) = .ok pos := by
  unfold readPos
  rw [readStr, Outcome.bind_ok, readPos_write pos h]
  rfl

/-! ## Hints -/

theorem readChallengeJ_write (e : Challenge) : readChallengeJ (.str (hexEnc e.1)) = .ok e := by
  unfold readChallengeJ
  rw [readHex_hex, Outcome.bind_ok, dif_pos e.2]

theorem readWscalar_write [NeZero q] (hq : q ≤ 2 ^ 256) (z : ZMod q) : readWscalar (.str (hexEnc (scalarBytes z))) = .ok z := by
  unfold readWscalar
  rw [readHex_hex, Outcome.bind_ok, if_pos (scalarBytes_length z), scalar_roundtrip hq z]

/-- Reading the fields of a proof. -/
theorem readProven_of (pc : PointCodec G) {o : List (Text × Json)} {i : SigmaBoolean G} {e : Challenge} {t : Unchecked G q}
    {pos : Position} {bs : Bytes} {j1 j2 j3 j4 : Json} (f1 : req [kPubkey] o = .ok j1) (g1 : readSB pc j1 = .ok i)
    (f2 : req [kChallenge] o = .ok j2) (g2 : readChallengeJ j2 = .ok e) (f3 : req [kProof] o = .ok j3) (g3 : readHex j3 = .ok bs)
    (f4 : req [kPosition] o = .ok j4) (g4 : readPos j4 = .ok pos) (g5 : parseSigComputeChallenges i bs = .ok t) :
    readProven pc o = .ok (i, e, t, pos) := by
  unfold readProven
  simp only [f1, f2, f3, f4, g1, g2, g3, g4, g5, Outcome.bind_ok, Outcome.pure_eq]

/-- Reading the fields of a commitment. -/
theorem readMsg_of (pc : PointCodec G) {o : List (Text × Json)} {m : Msg G}
    (h : match m with
      | .dlog a => req [kType] o = .ok (.str vDlog) ∧ req [kA] o = .ok (writePoint pc a)
      | .dht a b => req [kType] o = .ok (.str vDht) ∧ req [kA] o = .ok (writePoint pc a) ∧ req [kB] o = .ok (writePoint pc b)) :
    readMsg pc o = .ok m := by
  unfold readMsg
  cases m with
  | dlog a =>
    simp only [h.1, h.2, Outcome.bind_ok, readStr, if_true, readPoint_write, Outcome.pure_eq]
  | dht a b =>
    simp only [h.1, h.2.1, h.2.2, Outcome.bind_ok, readStr, if_true, readPoint_write, Outcome.pure_eq,
      if_neg (show ¬vDht = vDlog by decide)]

/-- Reading a hint with a commitment. -/
theorem readHint_cmt (pc : PointCodec G) {o : List (Text × Json)} {tag : Text} {i : SigmaBoolean G} {m : Msg G}
    {pos : Position} {j1 j2 : Json} (f0 : req [kHint] o = .ok (.str tag)) (n1 : tag ≠ vProofReal) (n2 : tag ≠ vProofSimulated)
    (f1 : req [kPubkey] o = .ok j1) (g1 : readSB pc j1 = .ok i) (hm : readMsg pc o = .ok m)
    (f2 : req [kPosition] o = .ok j2) (g2 : readPos j2 = .ok pos) :
    readHint (q := q) pc (.obj o) =
      if tag = vCmtWithSecret then do
        let r ← req [kSecret] o >>= readWscalar
        pure (.ownCommitment i r m pos)
      else if tag = vCmtReal then pure (.realCommitment i m pos)
      else if tag = vCmtSimulated then pure (.simulatedCommitment i m pos)
      else .err := by
  rw [readHint]
  simp only [f0, f1, f2, g1, g2, hm, Outcome.bind_ok, readStr, if_neg n1, if_neg n2]

theorem readMsg_fields (pc : PointCodec G) (m : Msg G) (o o' : List (Text × Json))
    (ho : named [kType] o = [] ∧ named [kA] o = [] ∧ named [kB] o = [])
    (ho' : named [kType] o' = [] ∧ named [kA] o' = [] ∧ named [kB] o' = []) :
    readMsg pc (o ++ (writeMsg pc m ++ o')) = .ok m := by
  have key : ∀ (k : Text), named [k] (o ++ (writeMsg pc m ++ o')) = named [k] o ++ (named [k] (writeMsg pc m) ++ named [k] o') := by
    intro k
    simp [named]
  apply readMsg_of
  cases m with
  | dlog a =>
    constructor
    · unfold req; rw [key, ho.1, ho'.1]; rfl
    · unfold req; rw [key, ho.2.1, ho'.2.1]; rfl
  | dht a b =>
    refine ⟨?_, ?_, ?_⟩
    · unfold req; rw [key, ho.1, ho'.1]; rfl
    · unfold req; rw [key, ho.2.1, ho'.2.1]; rfl
    · unfold req; rw [key, ho.2.2, ho'.2.2]; rfl

theorem named_mid (pc : PointCodec G) (m : Msg G) (o o' : List (Text × Json)) (k : Text) (hk : k ∉ [kType, kA, kB]) :
    named [k] (o ++ (writeMsg pc m ++ o')) = named [k] o ++ named [k] o' := by
  have h0 : named [k] (writeMsg pc m) = [] := by
    simp only [List.mem_cons, List.not_mem_nil, or_false, not_or] at hk
    cases m <;> simp [named, writeMsg, Ne.symm hk.1, Ne.symm hk.2.1, Ne.symm hk.2.2]
  have : named [k] (o ++ (writeMsg pc m ++ o')) = named [k] o ++ (named [k] (writeMsg pc m) ++ named [k] o') := by
    simp [named]
  rw [this, h0, List.nil_append]

theorem hint_rt [AddCommGroup G] [Module (ZMod q) G] [NeZero q] (hq : q ≤ 2 ^ 256) (pc : PointCodec G) (h : Hint G q) (hg : GoodHint h) :
    ∃ j, writeHint pc h = .ok j ∧ readHint pc j = .ok (forgetHint h) := by
  cases h with
  | realProof i e t pos =>
    obtain ⟨hb, hc, hp⟩ := hg
    obtain ⟨bs, h1, h2⟩ := C22_roundtrip hq i hb t hc
    have h3 := h2 []
    rw [List.append_nil] at h3
    refine ⟨_, by rw [writeHint, h1]; rfl, ?_⟩
    have hr := readProven_of pc (o := [(kHint, .str vProofReal), (kPubkey, writeSB pc i), (kChallenge, .str (hexEnc e.1)),
      (kProof, .str (hexEnc bs)), (kPosition, .str (writePos pos))]) rfl (readSB_write pc i hb) rfl (readChallengeJ_write e) rfl
      (readHex_hex bs) rfl (readPosJ pos hp) h3
    rw [readHint]
    have ht : (req [kHint] [(kHint, Json.str vProofReal), (kPubkey, writeSB pc i), (kChallenge, .str (hexEnc e.1)),
      (kProof, .str (hexEnc bs)), (kPosition, .str (writePos pos))] >>= readStr) = .ok vProofReal := rfl
    rw [ht, Outcome.bind_ok, if_pos rfl, hr]
    rfl
  | simulatedProof i e t pos =>
    obtain ⟨hb, hc, hp⟩ := hg
    obtain ⟨bs, h1, h2⟩ := C22_roundtrip hq i hb t hc
    have h3 := h2 []
    rw [List.append_nil] at h3
    refine ⟨_, by rw [writeHint, h1]; rfl, ?_⟩
    have hr := readProven_of pc (o := [(kHint, .str vProofSimulated), (kPubkey, writeSB pc i), (kChallenge, .str (hexEnc e.1)),
      (kProof, .str (hexEnc bs)), (kPosition, .str (writePos pos))]) rfl (readSB_write pc i hb) rfl (readChallengeJ_write e) rfl
      (readHex_hex bs) rfl (readPosJ pos hp) h3
    rw [readHint]
    have ht : (req [kHint] [(kHint, Json.str vProofSimulated), (kPubkey, writeSB pc i), (kChallenge, .str (hexEnc e.1)),
      (kProof, .str (hexEnc bs)), (kPosition, .str (writePos pos))] >>= readStr) = .ok vProofSimulated := rfl
    rw [ht, Outcome.bind_ok, if_neg (by decide), if_pos rfl, hr]
    rfl
  | ownCommitment i r m pos =>
    obtain ⟨hb, hp⟩ := hg
    refine ⟨_, rfl, ?_⟩
    have key := fun k hk => named_mid pc m [(kHint, .str vCmtWithSecret), (kPubkey, writeSB pc i),
      (kSecret, .str (hexEnc (scalarBytes r)))] [(kPosition, .str (writePos pos))] k hk
    have hm := readMsg_fields pc m [(kHint, .str vCmtWithSecret), (kPubkey, writeSB pc i),
      (kSecret, .str (hexEnc (scalarBytes r)))] [(kPosition, .str (writePos pos))] ⟨rfl, rfl, rfl⟩ ⟨rfl, rfl, rfl⟩
    have e0 := readHint_cmt (q := q) pc (o := [(kHint, .str vCmtWithSecret), (kPubkey, writeSB pc i),
      (kSecret, .str (hexEnc (scalarBytes r)))] ++ (writeMsg pc m ++ [(kPosition, .str (writePos pos))]))
      (by unfold req; rw [key _ (by decide)]; rfl) (by decide) (by decide) (by unfold req; rw [key _ (by decide)]; rfl)
      (readSB_write pc i hb) hm (by unfold req; rw [key _ (by decide)]; rfl) (readPosJ pos hp)
    refine e0.trans ?_
    rw [if_pos rfl]
    have : req [kSecret] ([(kHint, .str vCmtWithSecret), (kPubkey, writeSB pc i),
      (kSecret, .str (hexEnc (scalarBytes r)))] ++ (writeMsg pc m ++ [(kPosition, .str (writePos pos))])) =
      .ok (.str (hexEnc (scalarBytes r))) := by unfold req; rw [key _ (by decide)]; rfl
    rw [this, Outcome.bind_ok, readWscalar_write hq]
    rfl
  | realCommitment i m pos =>
    obtain ⟨hb, hp⟩ := hg
    refine ⟨_, rfl, ?_⟩
    have key := fun k hk => named_mid pc m [(kHint, .str vCmtReal), (kPubkey, writeSB pc i)] [(kPosition, .str (writePos pos))] k hk
    have hm := readMsg_fields pc m [(kHint, .str vCmtReal), (kPubkey, writeSB pc i)] [(kPosition, .str (writePos pos))]
      ⟨rfl, rfl, rfl⟩ ⟨rfl, rfl, rfl⟩
    have e0 := readHint_cmt (q := q) pc (o := [(kHint, .str vCmtReal), (kPubkey, writeSB pc i)] ++
      (writeMsg pc m ++ [(kPosition, .str (writePos pos))]))
      (by unfold req; rw [key _ (by decide)]; rfl) (by decide) (by decide) (by unfold req; rw [key _ (by decide)]; rfl)
      (readSB_write pc i hb) hm (by unfold req; rw [key _ (by decide)]; rfl) (readPosJ pos hp)
    refine e0.trans ?_
    rw [if_neg (by decide), if_pos rfl]
    rfl
  | simulatedCommitment i m pos =>
    obtain ⟨hb, hp⟩ := hg
    refine ⟨_, rfl, ?_⟩
    have key := fun k hk => named_mid pc m [(kHint, .str vCmtSimulated), (kPubkey, writeSB pc i)]
      [(kPosition, .str (writePos pos))] k hk
    have hm := readMsg_fields pc m [(kHint, .str vCmtSimulated), (kPubkey, writeSB pc i)] [(kPosition, .str (writePos pos))]
      ⟨rfl, rfl, rfl⟩ ⟨rfl, rfl, rfl⟩
    have e0 := readHint_cmt (q := q) pc (o := [(kHint, .str vCmtSimulated), (kPubkey, writeSB pc i)] ++
      (writeMsg pc m ++ [(kPosition, .str (writePos pos))]))
      (by unfold req; rw [key _ (by decide)]; rfl) (by decide) (by decide) (by unfold req; rw [key _ (by decide)]; rfl)
      (readSB_write pc i hb) hm (by unfold req; rw [key _ (by decide)]; rfl) (readPosJ pos hp)
    refine e0.trans ?_
    rw [if_neg (by decide), if_neg (by decide), if_pos rfl]
    rfl

end
end Verif.Json
