import Verif.Spec.Header
import Verif.Proofs.BigInt
import Verif.Proofs.VlqGet

set_option linter.unusedSimpArgs false
set_option linter.unusedVariables false

namespace Verif
open Spec

namespace AutolykosSolution
variable {G : Type} [DecidableEq G]

theorem parse_ser (pc : PointCodec G) (h : Header G) (g : GoodBlockHeader h) :
    ∃ bs, h.solution.ser pc h.version = .ok bs ∧
      ∀ rest, Header.parseSolution pc h.version (bs ++ rest) = some (h.solution, rest) := by
  by_cases hv : h.version = 1
  · obtain ⟨h1, d, h2, h3, h4⟩ := g.v1 hv
    obtain ⟨w, hw⟩ := Option.isSome_iff_exists.1 h1
    unfold ser Header.parseSolution
    simp only [hv, ↓reduceIte, hw, h2]
    refine ⟨_, rfl, fun rest => ?_⟩
    simp only [List.append_assoc]
    rw [Parser.bind_some (getPoint_putPoint pc _ _), Parser.bind_some (getPoint_putPoint pc _ _),
      Parser.bind_some (readExact_append' _ _ g.nonce)]
    have hl : (toSignedBe d).length ≤ 255 := by
      rw [toSignedBe_length]; exact signedLen_le (by decide) h3 h4
    rw [putU8, List.singleton_append, Parser.bind_some (getU8_cons _ _),
      Parser.bind_some (readExact_append' _ _ (by rw [BitVec.toNat_ofNat, Nat.mod_eq_of_lt (by omega)])),
      signedOfBe_toSignedBe, Parser.pure_run]
    congr 2
    cases hs : h.solution
    simp only [hs] at hw h2
    simp [hw, h2]
  · obtain ⟨h1, h2⟩ := g.v2 hv
    unfold ser Header.parseSolution
    simp only [hv, ↓reduceIte]
    refine ⟨_, rfl, fun rest => ?_⟩
    simp only [List.append_assoc]
    rw [Parser.bind_some (getPoint_putPoint pc _ _), Parser.bind_some (readExact_append' _ _ g.nonce), Parser.pure_run]
    congr 2
    cases hs : h.solution
    simp only [hs] at h1 h2
    simp [h1, h2]

end AutolykosSolution

namespace Header
variable {G : Type} [DecidableEq G]

/-- The fields before the version dependent part. -/
def fields (h : Header G) : Bytes :=
  putU8 h.version ++ h.parentId ++ h.adProofsRoot ++ h.transactionRoot ++ h.stateRoot ++ putU64 h.timestamp ++
    h.extensionRoot ++ putU32Be (h.nBits.setWidth 32) ++ putU32 h.height ++ h.votes

/-- The continuation of `parse` after the skipped fields. -/
def finish (H : HashFn) (pc : PointCodec G) (h : Header G) (solution : AutolykosSolution G) : Parser (Header G) :=
  match withId H pc (G := G)
      { version := h.version, id := List.replicate 32 0, parentId := h.parentId, adProofsRoot := h.adProofsRoot,
        stateRoot := h.stateRoot, transactionRoot := h.transactionRoot, timestamp := h.timestamp, nBits := h.nBits,
        height := h.height, extensionRoot := h.extensionRoot, solution := solution, votes := h.votes } with
  | .ok h => pure h
  | _ => Parser.fail

/-- Reading the fields of a good header followed by a skipped block `x`. -/
theorem parse_fields (H : HashFn) (pc : PointCodec G) (h : Header G) (x t : Bytes)
    (h1 : h.parentId.length = 32) (h2 : h.adProofsRoot.length = 32) (h3 : h.stateRoot.length = 33)
    (h4 : h.transactionRoot.length = 32) (h5 : h.extensionRoot.length = 32) (h6 : h.votes.length = 3)
    (h7 : h.nBits.toNat < 2 ^ 32) (hx : skipFields h.version (x ++ t) = some ((), t)) :
    parse H pc (fields h ++ (x ++ t)) = (parseSolution pc h.version >>= finish H pc h) t := by
  unfold parse fields
  simp only [List.append_assoc]
  rw [putU8, List.singleton_append, Parser.bind_some (getU8_cons _ _), Parser.bind_some (readExact_append' _ _ h1),
    Parser.bind_some (readExact_append' _ _ h2), Parser.bind_some (readExact_append' _ _ h4),
    Parser.bind_some (readExact_append' _ _ h3), Parser.bind_some (getU64_put _ _),
    Parser.bind_some (readExact_append' _ _ h5), Parser.bind_some (getU32Be_put _ _),
    Parser.bind_some (getU32_put _ _), Parser.bind_some (readExact_append' _ _ h6), Parser.bind_some hx]
  have hn : (h.nBits.setWidth 32).setWidth 64 = h.nBits := by
    apply BitVec.eq_of_toNat_eq
    rw [BitVec.toNat_setWidth, BitVec.toNat_setWidth, Nat.mod_eq_of_lt h7, Nat.mod_eq_of_lt h.nBits.isLt]
  rw [hn]
  rfl

/-- Reading a good header with any block of skipped fields. -/
theorem parse_skip (H : HashFn) (pc : PointCodec G) (h : Header G) (g : GoodBlockHeader h) :
    ∃ s, h.ser pc = .ok (h.serWithoutPow ++ s) ∧ ∀ x rest, skipFields h.version (x ++ (s ++ rest)) = some ((), s ++ rest) →
      parse H pc (fields h ++ (x ++ (s ++ rest))) = some ({ h with id := H (h.serWithoutPow ++ s) }, rest) := by
  obtain ⟨s, e1, e2⟩ := AutolykosSolution.parse_ser pc h g
  refine ⟨s, by unfold ser; rw [e1]; rfl, fun x rest hx => ?_⟩
  rw [parse_fields H pc h x (s ++ rest) g.parentId g.adProofsRoot g.stateRoot g.transactionRoot g.extensionRoot g.votes
    g.nBits hx, Parser.bind_some (e2 rest)]
  unfold finish withId
  simp only [e1, Outcome.bind_ok, Outcome.pure_eq, Parser.pure_run]
  rfl

/-- Reading back the bytes of a good header gives its fields and the id computed from these bytes. -/
theorem parse_ser (H : HashFn) (pc : PointCodec G) (h : Header G) (g : GoodBlockHeader h) :
    ∃ bs, h.ser pc = .ok bs ∧ ∀ rest, parse H pc (bs ++ rest) = some ({ h with id := H bs }, rest) := by
  obtain ⟨s, e1, e2⟩ := parse_skip H pc h g
  refine ⟨h.serWithoutPow ++ s, e1, fun rest => ?_⟩
  rw [← e2 (if 1 < h.version.toNat then putI8 0 else []) rest]
  · simp only [serWithoutPow, fields, List.append_assoc]
  · unfold skipFields
    split
    · rw [putI8, putU8, List.singleton_append, Parser.bind_some (getU8_cons _ _)]
      rfl
    · rfl

theorem readExact_length {n : Nat} {s b r : Bytes} (h : readExact n s = some (b, r)) : b.length = n := by
  unfold readExact at h
  split at h
  · simp only [Option.some.injEq, Prod.mk.injEq] at h
    rw [← h.1, List.length_take]; omega
  · cases h

theorem parseSolution_good (pc : PointCodec G) (v : Byte) (s r : Bytes) (a : AutolykosSolution G)
    (h : parseSolution pc v s = some (a, r)) :
    a.nonce.length = 8 ∧
    (v = 1 → a.onetimePk.isSome = true ∧
      ∃ d, a.distance = some d ∧ -((2 ^ (8 * 255 - 1) : Nat) : Int) ≤ d ∧ d < ((2 ^ (8 * 255 - 1) : Nat) : Int)) ∧
    (v ≠ 1 → a.onetimePk = none ∧ a.distance = none) := by
  unfold parseSolution at h
  split at h
  · rename_i hv
    obtain ⟨pk, s1, _, h⟩ := Parser.bind_eq_some.1 h
    obtain ⟨w, s2, _, h⟩ := Parser.bind_eq_some.1 h
    obtain ⟨nonce, s3, h3, h⟩ := Parser.bind_eq_some.1 h
    obtain ⟨n, s4, _, h⟩ := Parser.bind_eq_some.1 h
    obtain ⟨d, s5, h5, h⟩ := Parser.bind_eq_some.1 h
    simp only [Parser.pure_run, Option.some.injEq, Prod.mk.injEq] at h
    obtain ⟨rfl, _⟩ := h
    refine ⟨readExact_length h3, fun _ => ⟨rfl, _, rfl, ?_⟩, fun hn => absurd hv hn⟩
    have hd := readExact_length h5
    have hn := n.isLt
    rcases d with _ | ⟨x, l⟩
    · simp only [signedOfBe]
      have : 0 < 2 ^ (8 * 255 - 1) := Nat.two_pow_pos _
      generalize 2 ^ (8 * 255 - 1) = M at *
      omega
    · have hb := signedOfBe_bounds (x :: l) (by simp)
      have hle : 2 ^ (8 * (x :: l).length - 1) ≤ 2 ^ (8 * 255 - 1) := Nat.pow_le_pow_right (by decide) (by omega)
      generalize 2 ^ (8 * 255 - 1) = M at *
      generalize 2 ^ (8 * (x :: l).length - 1) = M' at *
      omega
  · rename_i hv
    obtain ⟨pk, s1, _, h⟩ := Parser.bind_eq_some.1 h
    obtain ⟨nonce, s3, h3, h⟩ := Parser.bind_eq_some.1 h
    simp only [Parser.pure_run, Option.some.injEq, Prod.mk.injEq] at h
    obtain ⟨rfl, _⟩ := h
    exact ⟨readExact_length h3, fun hn => absurd hn hv, fun _ => ⟨rfl, rfl⟩⟩

/-- Whatever is read is a good header, and its id is the hash of the bytes it is written to. -/
theorem parse_good (H : HashFn) (pc : PointCodec G) (s r : Bytes) (h : Header G) (e : parse H pc s = some (h, r)) :
    GoodBlockHeader h ∧ ∃ bs, h.ser pc = .ok bs ∧ h.id = H bs := by
  unfold parse at e
  obtain ⟨version, s0, _, e⟩ := Parser.bind_eq_some.1 e
  obtain ⟨parentId, s1, h1, e⟩ := Parser.bind_eq_some.1 e
  obtain ⟨ad, s2, h2, e⟩ := Parser.bind_eq_some.1 e
  obtain ⟨tr, s3, h3, e⟩ := Parser.bind_eq_some.1 e
  obtain ⟨sr, s4, h4, e⟩ := Parser.bind_eq_some.1 e
  obtain ⟨ts, s5, _, e⟩ := Parser.bind_eq_some.1 e
  obtain ⟨er, s6, h6, e⟩ := Parser.bind_eq_some.1 e
  obtain ⟨nb, s7, _, e⟩ := Parser.bind_eq_some.1 e
  obtain ⟨ht, s8, _, e⟩ := Parser.bind_eq_some.1 e
  obtain ⟨vo, s9, h9, e⟩ := Parser.bind_eq_some.1 e
  obtain ⟨_, s10, _, e⟩ := Parser.bind_eq_some.1 e
  obtain ⟨sol, s11, h11, e⟩ := Parser.bind_eq_some.1 e
  obtain ⟨g1, g2, g3⟩ := parseSolution_good pc version _ _ _ h11
  unfold withId at e
  cases es : sol.ser pc version with
  | err => simp only [es, Outcome.bind_err] at e; cases e
  | panic => simp only [es, Outcome.bind_panic] at e; cases e
  | ok bs =>
    simp only [es, Outcome.bind_ok, Outcome.pure_eq, Parser.pure_run, Option.some.injEq, Prod.mk.injEq] at e
    obtain ⟨rfl, _⟩ := e
    refine ⟨⟨readExact_length h1, readExact_length h2, readExact_length h4, readExact_length h3, readExact_length h6,
      readExact_length h9, ?_, g1, g2, g3⟩, _, by unfold ser; simp only [es, Outcome.bind_ok]; rfl, rfl⟩
    simp only [BitVec.toNat_setWidth]
    have := nb.isLt
    omega

end Header
end Verif
