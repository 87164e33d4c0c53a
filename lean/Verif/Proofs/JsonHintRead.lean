import Verif.Proofs.JsonHint
import Verif.Proofs.JsonProver
import Verif.Proofs.SigmaVerify
import Verif.Proofs.MultiSigRun
import Verif.Props.JsonBox

set_option linter.unusedSimpArgs false
set_option linter.unusedVariables false

/-!
# What is read from the JSON forms of propositions and hints
-/

namespace Verif.Json
open Verif Verif.Sigma Verif.Spec

section
variable {G : Type} [DecidableEq G] {q : Nat}

theorem sbItems_inv {l l' : List (SigmaBoolean G)} (h : sbItems l = .ok l') : l' = l ∧ 2 ≤ l.length ∧ l.length ≤ 255 := by
  unfold sbItems at h
  split at h
  · rename_i hl; cases h; exact ⟨rfl, hl⟩
  · cases h

theorem readSB_spec (pc : PointCodec G) : ∀ (n : Nat),
    (∀ (j : Json) (sb : SigmaBoolean G), sizeOf j < n → readSB pc j = .ok sb → sb.Bounded) ∧
    (∀ (l : List Json) (sbs : List (SigmaBoolean G)), sizeOf l < n → readSBs pc l = .ok sbs → SigmaBoolean.BoundedList sbs)
  | 0 => ⟨fun _ _ h => absurd h (Nat.not_lt_zero _), fun _ _ h => absurd h (Nat.not_lt_zero _)⟩
  | n + 1 => by
    obtain ⟨ih1, ih2⟩ := readSB_spec pc n
    constructor
    · intro j sb hn h
      cases j with
      | obj o =>
        rw [readSB] at h
        split at h
        · rename_i op hop
          split at h
          · obtain ⟨x, _, h2⟩ := json_bind_ok.1 h
            cases h2; trivial
          · split at h
            · obtain ⟨x1, _, h⟩ := json_bind_ok.1 h
              obtain ⟨x2, _, h⟩ := json_bind_ok.1 h
              obtain ⟨x3, _, h⟩ := json_bind_ok.1 h
              obtain ⟨x4, _, h⟩ := json_bind_ok.1 h
              cases h; trivial
            · split at h
              · obtain ⟨x, _, h2⟩ := json_bind_ok.1 h
                cases h2; trivial
              · split at h
                · split at h
                  · rename_i l hl
                    obtain ⟨items, h1, hh⟩ := json_bind_ok.1 h
                    obtain ⟨items', h2, hk⟩ := json_bind_ok.1 hh
                    obtain ⟨e, h3, h4⟩ := sbItems_inv h2
                    have hs := req_size hl
                    have hb := ih2 l items (by simp at hn; omega) h1
                    rw [e] at hk
                    split at hk
                    · cases hk; exact ⟨h3, h4, hb⟩
                    · split at hk
                      · cases hk; exact ⟨h3, h4, hb⟩
                      · obtain ⟨k, _, hk⟩ := json_bind_ok.1 hk
                        cases hk; exact ⟨h3, h4, hb⟩
                  · cases h
                · cases h
        · cases h
      | _ => rw [readSB] at h <;> first | cases h | simp
    · intro l sbs hn h
      cases l with
      | nil => rw [readSBs] at h; cases h; trivial
      | cons j l =>
        rw [readSBs] at h
        obtain ⟨a, h1, h⟩ := json_bind_ok.1 h
        obtain ⟨r, h2, h⟩ := json_bind_ok.1 h
        cases h
        simp at hn
        exact ⟨ih1 j a (by omega) h1, ih2 l r (by omega) h2⟩

theorem readSB_bounded (pc : PointCodec G) {j : Json} {sb : SigmaBoolean G} (h : readSB pc j = .ok sb) : sb.Bounded :=
  (readSB_spec pc (sizeOf j + 1)).1 j sb (Nat.lt_succ_self _) h

theorem readPoint_np (pc : PointCodec G) (j : Json) : readPoint pc j ≠ .panic := by
  intro h
  unfold readPoint at h
  rcases bind_panic_inv h with h | ⟨b, _, h⟩
  · exact readHex_np _ h
  · rcases bind_panic_inv h with h | ⟨p, _, h⟩
    · exact json_ofOpt_np _ h
    · cases h

theorem req_point_np (pc : PointCodec G) (n : List Text) (o : List (Text × Json)) : (req n o >>= readPoint pc) ≠ .panic := by
  intro h
  rcases bind_panic_inv h with h | ⟨p, _, h⟩
  · exact req_np _ _ h
  · exact readPoint_np _ _ h

theorem readSB_nopanic (pc : PointCodec G) : ∀ (n : Nat),
    (∀ (j : Json), sizeOf j < n → readSB pc j ≠ .panic) ∧ (∀ (l : List Json), sizeOf l < n → readSBs pc l ≠ .panic)
  | 0 => ⟨fun _ h => absurd h (Nat.not_lt_zero _), fun _ h => absurd h (Nat.not_lt_zero _)⟩
  | n + 1 => by
    obtain ⟨ih1, ih2⟩ := readSB_nopanic pc n
    constructor
    · intro j hn h
      cases j with
      | obj o =>
        rw [readSB] at h
        split at h
        · rename_i op hop
          split at h
          · rcases bind_panic_inv h with h | ⟨p, _, h⟩
            · exact req_point_np _ _ _ h
            · cases h
          · split at h
            · rcases bind_panic_inv h with h | ⟨p, _, h⟩
              · exact req_point_np _ _ _ h
              rcases bind_panic_inv h with h | ⟨p, _, h⟩
              · exact req_point_np _ _ _ h
              rcases bind_panic_inv h with h | ⟨p, _, h⟩
              · exact req_point_np _ _ _ h
              rcases bind_panic_inv h with h | ⟨p, _, h⟩
              · exact req_point_np _ _ _ h
              cases h
            · split at h
              · rcases bind_panic_inv h with h | ⟨p, _, h⟩
                · rcases bind_panic_inv h with h | ⟨p, _, h⟩
                  · exact req_np _ _ h
                  · cases p <;> cases h
                · cases h
              · split at h
                · split at h
                  · rename_i l hl
                    have hs := req_size hl
                    rcases bind_panic_inv h with h | ⟨items, h1, h⟩
                    · exact ih2 l (by simp at hn; omega) h
                    rcases bind_panic_inv h with h | ⟨items', h2, h⟩
                    · unfold sbItems at h; split at h <;> cases h
                    split at h
                    · cases h
                    · split at h
                      · cases h
                      · rcases bind_panic_inv h with h | ⟨k, _, h⟩
                        · rcases bind_panic_inv h with h | ⟨p, _, h⟩
                          · exact req_np _ _ h
                          · exact readUint_np _ _ h
                        · cases h
                  · cases h
                · cases h
        · cases h
      | _ => rw [readSB] at h <;> first | cases h | simp
    · intro l hn h
      cases l with
      | nil => rw [readSBs] at h; cases h
      | cons j l =>
        simp at hn
        rw [readSBs] at h
        rcases bind_panic_inv h with h | ⟨a, _, h⟩
        · exact ih1 j (by omega) h
        rcases bind_panic_inv h with h | ⟨r, _, h⟩
        · exact ih2 l (by omega) h
        cases h

theorem readSB_np (pc : PointCodec G) (j : Json) : readSB pc j ≠ .panic :=
  (readSB_nopanic pc (sizeOf j + 1)).1 j (Nat.lt_succ_self _)

/-! ## Positions -/

theorem splitDash_ne : ∀ (s : Text), splitDash s ≠ []
  | [] => by simp [splitDash]
  | c :: s => by
    rw [splitDash]
    split
    · simp
    · split <;> simp

theorem parseAllUint_spec : ∀ {l : List Text} {pos : List Nat}, parseAllUint l = some pos →
    pos.length = l.length ∧ ∀ n ∈ pos, n < 2 ^ 64
  | [], pos, h => by cases h; simp
  | s :: l, pos, h => by
    rw [parseAllUint] at h
    simp only [Option.bind_eq_bind, Option.bind_eq_some_iff, Option.pure_def, Option.some.injEq] at h
    obtain ⟨n, h1, r, h2, rfl⟩ := h
    obtain ⟨e1, e2⟩ := parseAllUint_spec h2
    have := parseUint_lt (by norm_num) h1
    refine ⟨by simp [e1], ?_⟩
    intro m hm
    rcases List.mem_cons.1 hm with rfl | hm
    · exact this
    · exact e2 m hm

theorem readPos_spec {j : Json} {pos : Position} (h : readPos j = .ok pos) : GoodPos pos := by
  unfold readPos at h
  obtain ⟨s, _, h2⟩ := json_bind_ok.1 h
  obtain ⟨e1, e2⟩ := parseAllUint_spec (json_ofOpt.1 h2)
  refine ⟨?_, e2⟩
  intro e
  rw [e] at e1
  have := splitDash_ne s
  cases hs : splitDash s with
  | nil => exact this hs
  | cons a l => rw [hs] at e1; simp at e1

theorem readPos_np (j : Json) : readPos j ≠ .panic := by
  intro h
  unfold readPos at h
  rcases bind_panic_inv h with h | ⟨b, _, h⟩
  · cases j <;> cases h
  · exact json_ofOpt_np _ h

/-! ## Hints -/

theorem parsed_spec {sb : SigmaBoolean G} (hb : sb.Bounded) {bs : Bytes} {t : Unchecked G q}
    (h : parseSigComputeChallenges sb bs = .ok t) : Consistent sb t ∧ clearCommitments t = t := by
  unfold parseSigComputeChallenges at h
  split at h
  · cases h
  · obtain ⟨⟨t', r⟩, h1, h2⟩ := json_bind_ok.1 h
    cases h2
    have := parse_inv sb hb none _ _ _ h1
    exact ⟨this.1, this.2.2⟩

theorem readProven_spec (pc : PointCodec G) {o : List (Text × Json)} {x : SigmaBoolean G × Challenge × Unchecked G q × Position}
    (h : readProven pc o = .ok x) : x.1.Bounded ∧ Consistent x.1 x.2.2.1 ∧ GoodPos x.2.2.2 ∧ clearCommitments x.2.2.1 = x.2.2.1 := by
  unfold readProven at h
  obtain ⟨i, h1, h⟩ := json_bind_ok.1 h
  obtain ⟨e, h2, h⟩ := json_bind_ok.1 h
  obtain ⟨bs, h3, h⟩ := json_bind_ok.1 h
  obtain ⟨pos, h4, h⟩ := json_bind_ok.1 h
  obtain ⟨t, h5, h⟩ := json_bind_ok.1 h
  cases h
  obtain ⟨j1, _, h1⟩ := json_bind_ok.1 h1
  obtain ⟨j4, _, h4⟩ := json_bind_ok.1 h4
  have hb := readSB_bounded pc h1
  obtain ⟨a1, a2⟩ := parsed_spec hb h5
  exact ⟨hb, a1, readPos_spec h4, a2⟩

theorem readHint_spec (pc : PointCodec G) {j : Json} {h : Hint G q} (hj : readHint pc j = .ok h) : GoodHint h ∧ forgetHint h = h := by
  cases j with
  | obj o =>
    rw [readHint] at hj
    obtain ⟨tag, _, hj⟩ := json_bind_ok.1 hj
    split at hj
    · obtain ⟨x, h1, hj⟩ := json_bind_ok.1 hj
      cases hj
      obtain ⟨a1, a2, a3, a4⟩ := readProven_spec pc h1
      exact ⟨⟨a1, a2, a3⟩, by rw [forgetHint, a4]⟩
    · split at hj
      · obtain ⟨x, h1, hj⟩ := json_bind_ok.1 hj
        cases hj
        obtain ⟨a1, a2, a3, a4⟩ := readProven_spec pc h1
        exact ⟨⟨a1, a2, a3⟩, by rw [forgetHint, a4]⟩
      · obtain ⟨i, h1, hj⟩ := json_bind_ok.1 hj
        obtain ⟨m, h2, hj⟩ := json_bind_ok.1 hj
        obtain ⟨pos, h3, hj⟩ := json_bind_ok.1 hj
        obtain ⟨j1, _, h1⟩ := json_bind_ok.1 h1
        obtain ⟨j3, _, h3⟩ := json_bind_ok.1 h3
        have hb := readSB_bounded pc h1
        have hp := readPos_spec h3
        split at hj
        · obtain ⟨r, _, hj⟩ := json_bind_ok.1 hj
          cases hj
          exact ⟨⟨hb, hp⟩, rfl⟩
        · split at hj
          · cases hj; exact ⟨⟨hb, hp⟩, rfl⟩
          · split at hj
            · cases hj; exact ⟨⟨hb, hp⟩, rfl⟩
            · cases hj
  | _ => cases hj

/-! ## No panics -/

theorem readChallenge_np' (ch : Option Challenge) (s : Bytes) : theChallenge ch s ≠ .panic := by
  cases ch with
  | some c => simp [theChallenge]
  | none =>
    rw [theChallenge, readChallenge]
    split <;> simp

theorem readScalar_np' (s : Bytes) : readScalar (q := q) s ≠ .panic := by
  unfold readScalar
  split <;> simp

/-- Parsing a proof for this proposition does not panic. -/
def PNP (q : Nat) (sb : SigmaBoolean G) : Prop := ∀ (ch : Option Challenge) (s : Bytes), parseSig (q := q) sb ch s ≠ .panic

omit [DecidableEq G] in
theorem np_and (e : Challenge) : ∀ (items : List (SigmaBoolean G)), (∀ a ∈ items, PNP q a) → ∀ s, parseAnd (q := q) e items s ≠ .panic
  | [], _, s, h => by rw [parseAnd] at h; cases h
  | a :: l, ih, s, h => by
    rw [parseAnd] at h
    rcases bind_panic_inv h with h | ⟨⟨t, s1⟩, _, h⟩
    · exact ih a (by simp) _ _ h
    rcases bind_panic_inv h with h | ⟨⟨ts, s2⟩, _, h⟩
    · exact np_and e l (fun a ha => ih a (by simp [ha])) _ h
    cases h

omit [DecidableEq G] in
theorem np_or : ∀ (items : List (SigmaBoolean G)) (acc : Challenge), (∀ a ∈ items, PNP q a) → ∀ s, parseOr (q := q) acc items s ≠ .panic
  | [], _, _, s, h => by rw [parseOr] at h; cases h
  | [a], acc, ih, s, h => by
    rw [parseOr] at h
    rcases bind_panic_inv h with h | ⟨⟨t, s1⟩, _, h⟩
    · exact ih a (by simp) _ _ h
    cases h
  | a :: b :: l, acc, ih, s, h => by
    rw [parseOr] at h
    · rcases bind_panic_inv h with h | ⟨⟨t, s1⟩, _, h⟩
      · exact ih a (by simp) _ _ h
      rcases bind_panic_inv h with h | ⟨⟨ts, s2⟩, _, h⟩
      · exact np_or (b :: l) _ (fun a ha => ih a (by simp at ha ⊢; tauto)) _ h
      cases h
    · simp

omit [DecidableEq G] in
theorem np_thr (poly : Gf.Poly) (hok : Gf.PolyOk poly) : ∀ (items : List (SigmaBoolean G)) (idx : Nat), (∀ a ∈ items, PNP q a) → ∀ s,
    parseThr (q := q) poly idx items s ≠ .panic
  | [], _, _, s, h => by rw [parseThr] at h; cases h
  | a :: l, idx, ih, s, h => by
    rw [parseThr, Gf.evaluate_eq hok, Outcome.bind_ok] at h
    rcases bind_panic_inv h with h | ⟨⟨t, s1⟩, _, h⟩
    · exact ih a (by simp) _ _ h
    rcases bind_panic_inv h with h | ⟨⟨ts, s2⟩, _, h⟩
    · exact np_thr poly hok l _ (fun a ha => ih a (by simp [ha])) _ h
    cases h

omit [DecidableEq G] in
theorem thresholdsFitList_iff : ∀ (l : List (SigmaBoolean G)), ThresholdsFitList l ↔ ∀ a ∈ l, ThresholdsFit a
  | [] => by simp [ThresholdsFitList]
  | a :: l => by rw [ThresholdsFitList, thresholdsFitList_iff l]; simp

omit [DecidableEq G] in
theorem parseSig_np (sb : SigmaBoolean G) (hf : ThresholdsFit sb) : PNP q sb := by
  induction sb using SigmaBoolean.induct with
  | htriv b =>
    intro ch s h
    rw [parseSig] at h
    rcases bind_panic_inv h with h | ⟨_, _, h⟩
    · exact readChallenge_np' _ _ h
    · cases h
  | hdlog x =>
    intro ch s h
    rw [parseSig] at h
    rcases bind_panic_inv h with h | ⟨⟨e, s1⟩, _, h⟩
    · exact readChallenge_np' _ _ h
    rcases bind_panic_inv h with h | ⟨⟨z, s2⟩, _, h⟩
    · exact readScalar_np' _ h
    · cases h
  | hdht g x u v =>
    intro ch s h
    rw [parseSig] at h
    rcases bind_panic_inv h with h | ⟨⟨e, s1⟩, _, h⟩
    · exact readChallenge_np' _ _ h
    rcases bind_panic_inv h with h | ⟨⟨z, s2⟩, _, h⟩
    · exact readScalar_np' _ h
    · cases h
  | hcand items ih =>
    intro ch s h
    have hf' := (thresholdsFitList_iff items).1 hf
    rw [parseSig] at h
    rcases bind_panic_inv h with h | ⟨⟨e, s1⟩, _, h⟩
    · exact readChallenge_np' _ _ h
    rcases bind_panic_inv h with h | ⟨⟨ts, s2⟩, _, h⟩
    · exact np_and e items (fun a ha => ih a ha (hf' a ha)) _ h
    · cases h
  | hcor items ih =>
    intro ch s h
    have hf' := (thresholdsFitList_iff items).1 hf
    rw [parseSig] at h
    rcases bind_panic_inv h with h | ⟨⟨e, s1⟩, _, h⟩
    · exact readChallenge_np' _ _ h
    rcases bind_panic_inv h with h | ⟨⟨ts, s2⟩, _, h⟩
    · exact np_or items e (fun a ha => ih a ha (hf' a ha)) _ h
    · cases h
  | hcth k items ih =>
    intro ch s h
    have hf' := (thresholdsFitList_iff items).1 hf.2
    rw [parseSig] at h
    rcases bind_panic_inv h with h | ⟨⟨e, s1⟩, _, h⟩
    · exact readChallenge_np' _ _ h
    rcases bind_panic_inv h with h | ⟨⟨poly, s2⟩, h2, h⟩
    · unfold readPoly at h
      rw [if_neg (by have := hf.1; omega)] at h
      split at h
      · rcases bind_panic_inv h with h | ⟨p, _, h⟩
        · unfold polyFromBytes at h
          split at h <;> cases h
        · cases h
      · cases h
    obtain ⟨p1, p2, p3, p4⟩ := readPoly_inv h2
    rcases bind_panic_inv h with h | ⟨⟨ts, s3⟩, _, h⟩
    · exact np_thr poly (Gf.polyOk_full p3 p2) items 0 (fun a ha => ih a ha (hf' a ha)) _ h
    · cases h

theorem readProven_panic (pc : PointCodec G) {o : List (Text × Json)} (h : readProven (q := q) pc o = .panic) :
    ∃ j i, req [kPubkey] o = .ok j ∧ readSB pc j = .ok i ∧ ¬ThresholdsFit i := by
  unfold readProven at h
  rcases bind_panic_inv h with h | ⟨i, h1, h⟩
  · rcases bind_panic_inv h with h | ⟨j, _, h⟩
    · exact absurd h (req_np _ _)
    · exact absurd h (readSB_np _ _)
  obtain ⟨j, hj, hi⟩ := json_bind_ok.1 h1
  refine ⟨j, i, hj, hi, ?_⟩
  rcases bind_panic_inv h with h | ⟨e, _, h⟩
  · exfalso
    rcases bind_panic_inv h with h | ⟨j, _, h⟩
    · exact req_np _ _ h
    · unfold readChallengeJ at h
      rcases bind_panic_inv h with h | ⟨b, _, h⟩
      · exact readHex_np _ h
      · split at h <;> cases h
  rcases bind_panic_inv h with h | ⟨bs, _, h⟩
  · exfalso
    rcases bind_panic_inv h with h | ⟨j, _, h⟩
    · exact req_np _ _ h
    · exact readHex_np _ h
  rcases bind_panic_inv h with h | ⟨pos, _, h⟩
  · exfalso
    rcases bind_panic_inv h with h | ⟨j, _, h⟩
    · exact req_np _ _ h
    · exact readPos_np _ h
  rcases bind_panic_inv h with h | ⟨t, _, h⟩
  · intro hf
    unfold parseSigComputeChallenges at h
    split at h
    · cases h
    · rcases bind_panic_inv h with h | ⟨⟨t, r⟩, _, h⟩
      · exact parseSig_np i hf none _ h
      · cases h
  · cases h

theorem readMsg_np (pc : PointCodec G) (o : List (Text × Json)) : readMsg pc o ≠ .panic := by
  intro h
  unfold readMsg at h
  rcases bind_panic_inv h with h | ⟨ty, _, h⟩
  · rcases bind_panic_inv h with h | ⟨j, _, h⟩
    · exact req_np _ _ h
    · cases j <;> cases h
  split at h
  · rcases bind_panic_inv h with h | ⟨a, _, h⟩
    · exact req_point_np _ _ _ h
    · cases h
  · split at h
    · rcases bind_panic_inv h with h | ⟨a, _, h⟩
      · exact req_point_np _ _ _ h
      rcases bind_panic_inv h with h | ⟨a, _, h⟩
      · exact req_point_np _ _ _ h
      · cases h
    · cases h

theorem readHint_panic (pc : PointCodec G) {j : Json} (h : readHint (q := q) pc j = .panic) :
    ∃ o jp i, j = .obj o ∧ req [kPubkey] o = .ok jp ∧ readSB pc jp = .ok i ∧ ¬ThresholdsFit i := by
  cases j with
  | obj o =>
    rw [readHint] at h
    rcases bind_panic_inv h with h | ⟨tag, _, h⟩
    · exfalso
      rcases bind_panic_inv h with h | ⟨j, _, h⟩
      · exact req_np _ _ h
      · cases j <;> cases h
    split at h
    · rcases bind_panic_inv h with h | ⟨x, _, h⟩
      · obtain ⟨jp, i, h1, h2, h3⟩ := readProven_panic pc h
        exact ⟨o, jp, i, rfl, h1, h2, h3⟩
      · cases h
    · split at h
      · rcases bind_panic_inv h with h | ⟨x, _, h⟩
        · obtain ⟨jp, i, h1, h2, h3⟩ := readProven_panic pc h
          exact ⟨o, jp, i, rfl, h1, h2, h3⟩
        · cases h
      · exfalso
        rcases bind_panic_inv h with h | ⟨i, _, h⟩
        · rcases bind_panic_inv h with h | ⟨j, _, h⟩
          · exact req_np _ _ h
          · exact readSB_np _ _ h
        rcases bind_panic_inv h with h | ⟨m, _, h⟩
        · exact readMsg_np _ _ h
        rcases bind_panic_inv h with h | ⟨pos, _, h⟩
        · rcases bind_panic_inv h with h | ⟨j, _, h⟩
          · exact req_np _ _ h
          · exact readPos_np _ h
        split at h
        · rcases bind_panic_inv h with h | ⟨r, _, h⟩
          · rcases bind_panic_inv h with h | ⟨j, _, h⟩
            · exact req_np _ _ h
            · unfold readWscalar at h
              rcases bind_panic_inv h with h | ⟨b, _, h⟩
              · exact readHex_np _ h
              · split at h <;> cases h
          · cases h
        · split at h
          · cases h
          · split at h <;> cases h
  | _ => cases h

/-! ## Hints of the library -/

theorem leafSB_bounded (p : LeafProp G) : p.toSB.Bounded := by cases p <;> trivial

mutual
theorem leavesAt_pos : ∀ (sb : SigmaBoolean G) (pos : Position), sb.Bounded → GoodPos pos → ∀ x ∈ leavesAt sb pos, GoodPos x.2
  | .trivial _, pos, _, _, x, hx => by cases hx
  | .dlog h, pos, _, hp, x, hx => by
    simp only [leavesAt, List.mem_singleton] at hx; subst hx; exact hp
  | .dht _ _ _ _, pos, _, hp, x, hx => by
    simp only [leavesAt, List.mem_singleton] at hx; subst hx; exact hp
  | .cand l, pos, hb, hp, x, hx => leavesAtList_pos l pos 0 hb.2.2 hp (by have := hb.2.1; omega) x hx
  | .cor l, pos, hb, hp, x, hx => leavesAtList_pos l pos 0 hb.2.2 hp (by have := hb.2.1; omega) x hx
  | .cth _ l, pos, hb, hp, x, hx => leavesAtList_pos l pos 0 hb.2.2 hp (by have := hb.2.1; omega) x hx
theorem leavesAtList_pos : ∀ (l : List (SigmaBoolean G)) (pos : Position) (i : Nat), SigmaBoolean.BoundedList l → GoodPos pos →
    i + l.length ≤ 255 → ∀ x ∈ leavesAtList l pos i, GoodPos x.2
  | [], _, _, _, _, _, x, hx => by cases hx
  | a :: l, pos, i, hb, hp, hl, x, hx => by
    rw [leavesAtList, List.mem_append] at hx
    simp only [List.length_cons] at hl
    rcases hx with hx | hx
    · refine leavesAt_pos a (pos ++ [i]) hb.1 ⟨by simp, ?_⟩ x hx
      intro n hn
      rcases List.mem_append.1 hn with hn | hn
      · exact hp.2 n hn
      · simp only [List.mem_singleton] at hn; omega
    · exact leavesAtList_pos l pos (i + 1) hb.2 hp (by omega) x hx
end

theorem prefix_good : GoodPos cryptoTreePrefix := ⟨by simp [cryptoTreePrefix], by intro n hn; simp [cryptoTreePrefix] at hn; omega⟩

section
variable [AddCommGroup G] [Module (ZMod q) G]

theorem commitments_good (C : Curve G) (r : Position → ZMod q) (sb : SigmaBoolean G) (hb : sb.Bounded) (keys : List (SigmaBoolean G)) :
    ∀ h ∈ generateCommitmentsFor C r sb keys, GoodHint h := by
  intro h hh
  obtain ⟨x, hx, _, h1⟩ := (mem_generate C r keys sb h).1 hh
  have hp := leavesAt_pos sb _ hb prefix_good x hx
  rcases h1 with rfl | rfl <;> exact ⟨leafSB_bounded _, hp⟩

theorem leafHints_good (real sim : List (SigmaBoolean G)) (C : Curve G) (p : LeafProp G) (e : Challenge) (z : ZMod q) (pos : Position)
    (hp : GoodPos pos) (hs : List (Hint G q)) (h : bagNode real sim (computeCommitments C (.leaf p none e z)) pos = .ok hs) :
    ∀ x ∈ hs, GoodHint x := by
  intro x hx
  simp only [computeCommitments, bagNode] at h
  have hc : ∀ m : Option (Msg G), Consistent p.toSB (.leaf p m e z) := by intro m; cases p <;> exact rfl
  split at h
  · cases h
    simp only [List.mem_cons, List.not_mem_nil, or_false] at hx
    rcases hx with rfl | rfl
    · exact ⟨leafSB_bounded _, hp⟩
    · exact ⟨leafSB_bounded _, hc _, hp⟩
  · split at h
    · cases h
      simp only [List.mem_cons, List.not_mem_nil, or_false] at hx
      rcases hx with rfl | rfl
      · exact ⟨leafSB_bounded _, hp⟩
      · exact ⟨leafSB_bounded _, hc _, hp⟩
    · cases h; cases hx

mutual
/-- Every node has at most 255 children. -/
def Narrow : Unchecked G q → Prop
  | .leaf _ _ _ _ => True
  | .conj _ _ cs => cs.length ≤ 255 ∧ NarrowList cs
/-- Child by child. -/
def NarrowList : List (Unchecked G q) → Prop
  | [] => True
  | c :: cs => Narrow c ∧ NarrowList cs
end

mutual
theorem bagNode_good (real sim : List (SigmaBoolean G)) (C : Curve G) : ∀ (t : Unchecked G q) (pos : Position) (hs : List (Hint G q)),
    Narrow t → GoodPos pos → bagNode real sim (computeCommitments C t) pos = .ok hs → ∀ h ∈ hs, GoodHint h
  | .leaf p m e z, pos, hs, _, hp, h => leafHints_good real sim C p e z pos hp hs h
  | .conj k e cs, pos, hs, hn, hp, h => by
    rw [computeCommitments, bagNode] at h
    exact bagNodes_good real sim C cs pos 0 hs hn.2 (by have := hn.1; omega) hp h
theorem bagNodes_good (real sim : List (SigmaBoolean G)) (C : Curve G) : ∀ (cs : List (Unchecked G q)) (pos : Position) (i : Nat)
    (hs : List (Hint G q)), NarrowList cs → i + cs.length ≤ 255 → GoodPos pos →
    bagNodes real sim (computeCommitmentsList C cs) pos i = .ok hs → ∀ h ∈ hs, GoodHint h
  | [], _, _, hs, _, _, _, h => by
    rw [computeCommitmentsList, bagNodes] at h
    cases h
    intro x hx; cases hx
  | c :: cs, pos, i, hs, hn, hl, hp, h => by
    rw [computeCommitmentsList, bagNodes] at h
    obtain ⟨a, h1, h2⟩ := json_bind_ok.1 h
    obtain ⟨b, h3, h4⟩ := json_bind_ok.1 h2
    cases h4
    simp only [List.length_cons] at hl
    intro x hx
    rcases List.mem_append.1 hx with hx | hx
    · refine bagNode_good real sim C c (pos ++ [i]) a hn.1 ⟨by simp, ?_⟩ h1 x hx
      intro n hn
      rcases List.mem_append.1 hn with hn | hn
      · exact hp.2 n hn
      · simp only [List.mem_singleton] at hn; omega
    · exact bagNodes_good real sim C cs pos (i + 1) b hn.2 (by omega) hp h3 x hx
end

omit [DecidableEq G] [AddCommGroup G] [Module (ZMod q) G] in
theorem consistentList_length : ∀ (as : List (SigmaBoolean G)) (ts : List (Unchecked G q)), ConsistentList as ts → ts.length = as.length
  | [], [], _ => rfl
  | a :: as, t :: ts, h => by rw [List.length_cons, List.length_cons, consistentList_length as ts h.2]
  | [], _ :: _, h => h.elim
  | _ :: _, [], h => h.elim

omit [DecidableEq G] [AddCommGroup G] [Module (ZMod q) G] in
mutual
theorem narrow_of : ∀ (sb : SigmaBoolean G) (t : Unchecked G q), sb.Bounded → Consistent sb t → Narrow t
  | _, .leaf _ _ _ _, _, _ => trivial
  | .cand l, .conj .and e cs, hb, hc => by
    have hl := consistentList_length _ _ hc.2
    exact ⟨by have := hb.2.1; omega, narrowList_of l cs hb.2.2 hc.2⟩
  | .cor l, .conj .or e cs, hb, hc => by
    have hl := consistentList_length _ _ hc.2
    exact ⟨by have := hb.2.1; omega, narrowList_of l cs hb.2.2 hc.2⟩
  | .cth k l, .conj (.thr k' poly) e cs, hb, hc => by
    have hc' := hc.2.2.2.2.2.2
    have hl := consistentList_length _ _ hc'
    exact ⟨by have := hb.2.1; omega, narrowList_of l cs hb.2.2 hc'⟩
  | .trivial _, .conj _ _ _, _, hc => hc.elim
  | .dlog _, .conj _ _ _, _, hc => hc.elim
  | .dht _ _ _ _, .conj _ _ _, _, hc => hc.elim
  | .cand _, .conj .or _ _, _, hc => hc.elim
  | .cand _, .conj (.thr _ _) _ _, _, hc => hc.elim
  | .cor _, .conj .and _ _, _, hc => hc.elim
  | .cor _, .conj (.thr _ _) _ _, _, hc => hc.elim
  | .cth _ _, .conj .and _ _, _, hc => hc.elim
  | .cth _ _, .conj .or _ _, _, hc => hc.elim
theorem narrowList_of : ∀ (as : List (SigmaBoolean G)) (ts : List (Unchecked G q)), SigmaBoolean.BoundedList as → ConsistentList as ts →
    NarrowList ts
  | [], [], _, _ => trivial
  | a :: as, t :: ts, hb, hc => ⟨narrow_of a t hb.1 hc.1, narrowList_of as ts hb.2 hc.2⟩
  | [], _ :: _, _, hc => hc.elim
  | _ :: _, [], _, hc => hc.elim
end

theorem bag_good (C : Curve G) (sb : SigmaBoolean G) (hb : sb.Bounded) (real sim : List (SigmaBoolean G)) (proof : Bytes)
    (hs : List (Hint G q)) (h : bagForMultiSig C sb real sim proof = .ok hs) : ∀ x ∈ hs, GoodHint x := by
  have key : ∀ sb : SigmaBoolean G, sb.Bounded → (parseSigComputeChallenges (q := q) sb proof >>= fun t =>
      bagNode real sim (computeCommitments C t) cryptoTreePrefix) = .ok hs → ∀ x ∈ hs, GoodHint x := by
    intro sb hb h
    obtain ⟨t, h1, h2⟩ := json_bind_ok.1 h
    exact bagNode_good real sim C t _ hs (narrow_of sb t hb (parsed_spec hb h1).1) prefix_good h2
  cases sb with
  | trivial b => cases h; intro x hx; cases hx
  | _ => exact key _ hb h

end

/-! ## Lists and bags -/

section
variable [AddCommGroup G] [Module (ZMod q) G] [NeZero q]

theorem hints_rt (hq : q ≤ 2 ^ 256) (pc : PointCodec G) : ∀ (hs : List (Hint G q)), (∀ h ∈ hs, GoodHint h) →
    ∃ js, writeMany (writeHint pc) hs = .ok js ∧ readArr (readHint pc) (.arr js) = .ok (hs.map forgetHint)
  | [], _ => ⟨[], rfl, rfl⟩
  | a :: l, h => by
    obtain ⟨j, h1, h2⟩ := hint_rt hq pc a (h a (by simp))
    obtain ⟨js, h3, h4⟩ := hints_rt hq pc l (fun x hx => h x (by simp [hx]))
    refine ⟨j :: js, by rw [writeMany, h1, Outcome.bind_ok, h3]; rfl, ?_⟩
    show readArr.go (readHint pc) (j :: js) = _
    have h5 : readArr.go (readHint pc) js = .ok (l.map forgetHint) := h4
    rw [readArr.go, h2, Outcome.bind_ok, h5]
    rfl

theorem viaJson_ok (hq : q ≤ 2 ^ 256) (pc : PointCodec G) (hs : List (Hint G q)) (h : ∀ x ∈ hs, GoodHint x) :
    viaJson pc hs = .ok (hs.map forgetHint) := by
  obtain ⟨js, h1, h2⟩ := hints_rt hq pc hs h
  unfold viaJson
  rw [h1, Outcome.bind_ok, h2]

/-- What reading one entry of a map of hints means. -/
def HintEntry (pc : PointCodec G) (p : Text × Json) (e : Nat × List (Hint G q)) : Prop :=
  readIndex p.1 = some e.1 ∧ readArr (readHint pc) p.2 = .ok e.2

omit [AddCommGroup G] [Module (ZMod q) G] [NeZero q] in
theorem readHintMap_iff (pc : PointCodec G) : ∀ (l : List (Text × Json)) (m m' : FMap Nat (List (Hint G q))),
    readHintMap pc l m = .ok m' ↔ ∃ es, List.Forall₂ (HintEntry pc) l es ∧ m' = FMap.insertList m es
  | [], m, m' => by
    rw [readHintMap]
    constructor
    · intro h; cases h; exact ⟨[], List.Forall₂.nil, rfl⟩
    · rintro ⟨es, h1, h2⟩
      cases h1
      rw [h2]; rfl
  | p :: l, m, m' => by
    rw [readHintMap]
    constructor
    · intro h
      obtain ⟨r, h1, h2⟩ := json_bind_ok.1 h
      obtain ⟨v, h3, h4⟩ := json_bind_ok.1 h2
      obtain ⟨es, h5, h6⟩ := (readHintMap_iff pc l _ m').1 h4
      exact ⟨(r, v) :: es, List.Forall₂.cons ⟨json_ofOpt.1 h1, h3⟩ h5, h6⟩
    · rintro ⟨es, h1, h2⟩
      cases h1 with
      | cons h3 h4 =>
        rename_i q es'
        rw [json_ofOpt.2 h3.1, Outcome.bind_ok, h3.2, Outcome.bind_ok]
        exact (readHintMap_iff pc l _ m').2 ⟨es', h4, h2⟩

theorem readIndex_decimal {n : Nat} (h : n < 2 ^ 64) : readIndex (decimal n) = some n := by
  unfold readIndex
  rw [parseUint_decimal h]
  simp

/-- The hints of every input without the commitments in their trees. -/
def forgetMap (m : FMap Nat (List (Hint G q))) : FMap Nat (List (Hint G q)) := m.map fun p => (p.1, p.2.map forgetHint)

theorem writeHintMap_rt (hq : q ≤ 2 ^ 256) (pc : PointCodec G) : ∀ (m : FMap Nat (List (Hint G q))), (∀ p ∈ m, p.1 < 2 ^ 64) →
    (∀ p ∈ m, ∀ h ∈ p.2, GoodHint h) → ∃ o, writeHintMap pc m = .ok o ∧ List.Forall₂ (HintEntry pc) o (forgetMap m)
  | [], _, _ => ⟨[], rfl, List.Forall₂.nil⟩
  | p :: m, hi, hh => by
    obtain ⟨js, h1, h2⟩ := hints_rt hq pc p.2 (hh p (by simp))
    obtain ⟨o, h3, h4⟩ := writeHintMap_rt hq pc m (fun x hx => hi x (by simp [hx])) (fun x hx => hh x (by simp [hx]))
    refine ⟨(decimal p.1, .arr js) :: o, by rw [writeHintMap, h1, Outcome.bind_ok, h3]; rfl, ?_⟩
    exact List.Forall₂.cons ⟨readIndex_decimal (hi p (by simp)), h2⟩ h4

omit [DecidableEq G] [AddCommGroup G] [Module (ZMod q) G] [NeZero q] in
theorem forgetMap_ok {m : FMap Nat (List (Hint G q))} (h : m.Ok) : (forgetMap m).Ok := by
  unfold FMap.Ok at h ⊢
  unfold forgetMap
  rw [List.map_map]
  exact h

omit [DecidableEq G] [AddCommGroup G] [Module (ZMod q) G] [NeZero q] in
theorem forgetMap_get (m : FMap Nat (List (Hint G q))) (i : Nat) : (forgetMap m).get i = (m.get i).map (List.map forgetHint) := by
  induction m with
  | nil => rfl
  | cons p m ih =>
    show (if p.1 = i then some (p.2.map forgetHint) else (forgetMap m).get i) =
      Option.map (List.map forgetHint) (if p.1 = i then some p.2 else FMap.get m i)
    rw [ih]
    split <;> rfl

omit [AddCommGroup G] [Module (ZMod q) G] [NeZero q] in
theorem readHintMap_perm (pc : PointCodec G) {o o' : List (Text × Json)} {m : FMap Nat (List (Hint G q))} (hm : m.Ok)
    (h : List.Forall₂ (HintEntry pc) o m) (hp : o'.Perm o) : ∃ m', readHintMap pc o' [] = .ok m' ∧ ∀ i, m'.get i = m.get i := by
  obtain ⟨m', hpm, hf⟩ := List.perm_comp_forall₂ hp h
  have hm' : FMap.Ok m' := by
    unfold FMap.Ok at hm ⊢
    exact (hf.map Prod.fst).nodup_iff.2 hm
  refine ⟨m', (readHintMap_iff pc o' [] m').2 ⟨m', hpm, (FMap.insertList_nil hm').symm⟩, ?_⟩
  intro i
  exact FMap.get_perm hf hm' i

theorem txHints_rt (hq : q ≤ 2 ^ 256) (pc : PointCodec G) (ord : List (Text × Json) → List (Text × Json)) (ho : IsOrder ord)
    (b : TxHints G q) (hb : GoodBag b) : ∃ j b', writeTxHints pc ord b = .ok j ∧ readTxHints pc j = .ok b' ∧
      (∀ i, b'.secretHints.get i = (b.secretHints.get i).map (List.map forgetHint)) ∧
      (∀ i, b'.publicHints.get i = (b.publicHints.get i).map (List.map forgetHint)) := by
  obtain ⟨o1, h1, h2⟩ := writeHintMap_rt hq pc b.secretHints hb.secretIndex hb.secretHints
  obtain ⟨o2, h3, h4⟩ := writeHintMap_rt hq pc b.publicHints hb.publicIndex hb.publicHints
  obtain ⟨m1, h5, h6⟩ := readHintMap_perm pc (forgetMap_ok hb.secretKeys) h2 (ho o1)
  obtain ⟨m2, h7, h8⟩ := readHintMap_perm pc (forgetMap_ok hb.publicKeys) h4 (ho o2)
  refine ⟨_, ⟨m1, m2⟩, by rw [writeTxHints, h1, Outcome.bind_ok, h3]; rfl, ?_, fun i => (h6 i).trans (forgetMap_get _ i),
    fun i => (h8 i).trans (forgetMap_get _ i)⟩
  rw [readTxHints]
  have e1 : (req [kSecretHints] [(kSecretHints, .obj (ord o1)), (kPublicHints, .obj (ord o2))] >>= readObj) = .ok (ord o1) := rfl
  have e2 : (req [kPublicHints] [(kSecretHints, .obj (ord o1)), (kPublicHints, .obj (ord o2))] >>= readObj) = .ok (ord o2) := rfl
  rw [e1, Outcome.bind_ok, h5, Outcome.bind_ok, e2, Outcome.bind_ok, h7]
  rfl

end
end
end Verif.Json
