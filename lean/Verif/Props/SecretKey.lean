import Verif.Model.SecretKey
import Verif.Proofs.ExtKey
import Verif.Proofs.JsonHint
import Verif.Props.AddressScript
import Verif.Props.SigmaProtocol
import Verif.Props.JsonHint

/-!
# C80: secret keys survive their byte and JSON forms and spend from their address
-/

set_option linter.unusedSimpArgs false
set_option linter.unusedVariables false

namespace Verif
open Sigma Json Spec

section
variable {G : Type} [DecidableEq G] {q : Nat}

theorem pointOfBytes_put (pc : PointCodec G) (g : G) : pointOfBytes pc (putPoint pc g) = some g := by
  have := getPoint_putPoint pc g []
  rw [List.append_nil] at this
  simp [pointOfBytes, this]

theorem take_append_len {α : Type} (a b : List α) (n : Nat) (h : a.length = n) : (a ++ b).take n = a := by
  rw [List.take_append_of_le_length (by omega), List.take_of_length_le (by omega)]

theorem drop_append_len {α : Type} (a b : List α) (n : Nat) (h : a.length = n) : (a ++ b).drop n = b := by
  rw [List.drop_append_of_le_length (by omega), List.drop_eq_nil_of_le (by omega), List.nil_append]

/-- C80: the bytes of a secret are read back, for every curve and order of at most 256 bits. -/
theorem C80_bytes_roundtrip [NeZero q] (hq : q ≤ 2 ^ 256) (pc : PointCodec G) (s : Secret G q) :
    secretOfBytes pc (secretToBytes pc s) = some s := by
  cases s with
  | dlog w =>
    rw [secretToBytes, secretOfBytes, if_pos (scalarBytes_length w), keyOfBytes_scalarBytes hq]
    rfl
  | dht w g h u v =>
    have hw := scalarBytes_length w
    have hg := putPoint_length pc g
    have hh := putPoint_length pc h
    have hu := putPoint_length pc u
    have hv := putPoint_length pc v
    rw [secretToBytes, secretOfBytes, if_neg (by simp only [List.length_append]; omega), if_pos (by simp only [List.length_append]; omega)]
    have e1 := take_append_len (scalarBytes w) (putPoint pc g ++ (putPoint pc h ++ (putPoint pc u ++ putPoint pc v))) 32 hw
    have d1 := drop_append_len (scalarBytes w) (putPoint pc g ++ (putPoint pc h ++ (putPoint pc u ++ putPoint pc v))) 32 hw
    have d2 := drop_append_len (putPoint pc g) (putPoint pc h ++ (putPoint pc u ++ putPoint pc v)) 33 hg
    have d3 := drop_append_len (putPoint pc h) (putPoint pc u ++ putPoint pc v) 33 hh
    have d4 := drop_append_len (putPoint pc u) (putPoint pc v) 33 hu
    rw [dhtOfBytes, e1, show (65 : Nat) = 32 + 33 from rfl, show (98 : Nat) = 32 + (33 + 33) from rfl,
      show (131 : Nat) = 32 + (33 + (33 + 33)) from rfl, ← List.drop_drop, ← List.drop_drop, ← List.drop_drop, ← List.drop_drop,
      ← List.drop_drop, ← List.drop_drop, d1, d2, d3, d4,
      take_append_len _ _ 33 hg, take_append_len _ _ 33 hh, take_append_len _ _ 33 hu, List.take_of_length_le (by omega)]
    simp only [dhtOfFields, pointOfBytes_put, keyOfBytes_scalarBytes hq]
    rfl

/-- C80: 32 bytes are one secret number, 164 bytes are a number with four points; nothing else is a secret.  A number outside of the
group is refused. -/
theorem C80_bytes_reads [NeZero q] (pc : PointCodec G) (bs : Bytes) (s : Secret G q) (h : secretOfBytes pc bs = some s) :
    (bs.length = 32 ∧ s = .dlog (Sigma.beNat bs : ZMod q) ∧ Sigma.beNat bs < q) ∨
    (bs.length = 164 ∧ Sigma.beNat (bs.take 32) < q ∧ ∃ g h u v, s = .dht (Sigma.beNat (bs.take 32) : ZMod q) g h u v ∧
      pointOfBytes pc ((bs.drop 32).take 33) = some g ∧ pointOfBytes pc ((bs.drop 65).take 33) = some h ∧
      pointOfBytes pc ((bs.drop 98).take 33) = some u ∧ pointOfBytes pc ((bs.drop 131).take 33) = some v) := by
  unfold secretOfBytes at h
  split at h
  · rename_i hl
    left
    obtain ⟨w, hw, rfl⟩ := Option.map_eq_some_iff.1 h
    unfold keyOfBytes at hw
    split at hw
    · cases hw; exact ⟨hl, rfl, ‹_›⟩
    · cases hw
  · split at h
    · rename_i hl
      right
      simp only [dhtOfBytes, dhtOfFields, Option.bind_eq_bind, Option.bind_eq_some_iff] at h
      obtain ⟨g, hg, h', hh, u, hu, v, hv, w, hw, e⟩ := h
      cases e
      unfold keyOfBytes at hw
      split at hw
      · rename_i hlt
        cases hw; exact ⟨hl, hlt, g, h', u, v, rfl, hg, hh, hu, hv⟩
      · cases hw
    · cases h

/-- C80: the bytes of a single number are canonical: what is read is written again. -/
theorem C80_dlog_canonical [NeZero q] (pc : PointCodec G) (bs : Bytes) (w : ZMod q)
    (h : secretOfBytes pc bs = some (.dlog w)) : secretToBytes pc (.dlog w : Secret G q) = bs := by
  rcases C80_bytes_reads pc bs _ h with ⟨hl, e, hlt⟩ | ⟨_, _, g, h', u, v, e, _⟩
  · simp only [Secret.dlog.injEq] at e
    subst e
    rw [secretToBytes, scalarBytes, ZMod.val_natCast_of_lt hlt, ← hl, Sigma.natBe_beNat]
  · cases e

/-- C80, negation: the bytes of a Diffie-Hellman tuple are not canonical.  33 bytes beginning with 0 are all read as the neutral
element, so different byte strings are read as the same secret (for every curve). -/
theorem C80_dht_canonical_violates [NeZero q] (pc : PointCodec G) :
    ∃ bs bs' : Bytes, bs ≠ bs' ∧ ∃ s : Secret G q, secretOfBytes pc bs = some s ∧ secretOfBytes pc bs' = some s := by
  have hz : ∀ t : Bytes, t.length = 32 → pointOfBytes pc (0 :: t) = some pc.one := by
    intro t ht
    unfold pointOfBytes getPoint
    rw [Parser.bind_some (a := 0 :: t) (s' := []) (by
      have := readExact_append' (n := 33) (0 :: t) [] (by simp [ht])
      simpa using this)]
    rfl
  have hk : keyOfBytes (q := q) (List.replicate 32 0) = some 0 := by
    have h0 : Sigma.beNat (List.replicate 32 0) = 0 := by decide
    unfold keyOfBytes
    rw [h0, if_pos (Nat.pos_of_ne_zero (NeZero.ne q))]
    simp
  refine ⟨List.replicate 163 0 ++ [0], List.replicate 163 0 ++ [1], by decide +kernel, .dht 0 pc.one pc.one pc.one pc.one, ?_, ?_⟩
  · have hl : (List.replicate 163 (0 : Byte) ++ [0]).length = 164 := by rw [List.length_append, List.length_replicate]; rfl
    rw [secretOfBytes, if_neg (by rw [hl]; omega), if_pos hl, dhtOfBytes]
    have e0 : (List.replicate 163 (0 : Byte) ++ [0]).take 32 = List.replicate 32 0 := by decide
    have e1 : ((List.replicate 163 (0 : Byte) ++ [0]).drop 32).take 33 = 0 :: List.replicate 32 0 := by decide
    have e2 : ((List.replicate 163 (0 : Byte) ++ [0]).drop 65).take 33 = 0 :: List.replicate 32 0 := by decide
    have e3 : ((List.replicate 163 (0 : Byte) ++ [0]).drop 98).take 33 = 0 :: List.replicate 32 0 := by decide
    have e4 : ((List.replicate 163 (0 : Byte) ++ [0]).drop 131).take 33 = 0 :: List.replicate 32 0 := by decide
    rw [e0, e1, e2, e3, e4, dhtOfFields, hz _ (by simp), hk]
    rfl
  · have hl : (List.replicate 163 (0 : Byte) ++ [1]).length = 164 := by rw [List.length_append, List.length_replicate]; rfl
    rw [secretOfBytes, if_neg (by rw [hl]; omega), if_pos hl, dhtOfBytes]
    have e0 : (List.replicate 163 (0 : Byte) ++ [1]).take 32 = List.replicate 32 0 := by decide
    have e1 : ((List.replicate 163 (0 : Byte) ++ [1]).drop 32).take 33 = 0 :: List.replicate 32 0 := by decide
    have e2 : ((List.replicate 163 (0 : Byte) ++ [1]).drop 65).take 33 = 0 :: List.replicate 32 0 := by decide
    have e3 : ((List.replicate 163 (0 : Byte) ++ [1]).drop 98).take 33 = 0 :: List.replicate 32 0 := by decide
    have e4 : ((List.replicate 163 (0 : Byte) ++ [1]).drop 131).take 33 = 0 :: (List.replicate 31 0 ++ [1]) := by decide
    rw [e0, e1, e2, e3, e4, dhtOfFields, hz _ (by simp), hz _ (by simp), hk]
    rfl

omit [DecidableEq G] in
theorem keyOfNat_bytes (n : Nat) :
    ((List.range 32).map fun i => BitVec.ofNat 8 (n >>> ((31 - i) * 8))) = Sigma.natBe 32 n := by
  have h : ∀ k, ((List.range k).map fun i => BitVec.ofNat 8 (n >>> ((k - 1 - i) * 8))) = Sigma.natBe k n := by
    intro k
    induction k generalizing n with
    | zero => rfl
    | succ k ih =>
      rw [Sigma.natBe, ← ih (n / 256), List.range_succ, List.map_append]
      congr 1
      · apply List.map_congr_left
        intro i hi
        have hi := List.mem_range.1 hi
        rw [show (k + 1 - 1 - i) * 8 = 8 + (k - 1 - i) * 8 by omega, Nat.shiftRight_add, Nat.shiftRight_eq_div_pow n 8]
      · simp
  exact h 32

/-- C80: a number below 2^256 gives its key exactly if it is below the group order. -/
theorem C80_biguint_partial [NeZero q] (n : Nat) (hn : n < 2 ^ 256) (w : ZMod q) :
    keyOfNat n = some w ↔ n < q ∧ w = (n : ZMod q) := by
  unfold keyOfNat keyOfBytes
  rw [keyOfNat_bytes, Sigma.beNat_natBe 32 n (by have : (256 : Nat) ^ 32 = 2 ^ 256 := by norm_num
                                                 omega)]
  split
  · simp only [Option.some.injEq]
    exact ⟨fun h => ⟨‹_›, h.symm⟩, fun h => h.2.symm⟩
  · simp only [reduceCtorEq, false_iff]
    exact fun h => ‹¬ _› h.1

/-- C80, negation: larger numbers are not refused as the documentation says; they are cut to their lowest 256 bits: the number 2^256
gives the key 0, for every group order. -/
theorem C80_biguint_violates [NeZero q] : keyOfNat (2 ^ 256) = some (0 : ZMod q) := by
  unfold keyOfNat keyOfBytes
  have h : Sigma.beNat ((List.range 32).map fun i => BitVec.ofNat 8 (2 ^ 256 >>> ((31 - i) * 8))) = 0 := by decide +kernel
  rw [h, if_pos (Nat.pos_of_ne_zero (NeZero.ne q))]
  simp

/-- C80: the key written as a hexadecimal text. -/
theorem C80_hex [NeZero q] (hq : q ≤ 2 ^ 256) (pc : PointCodec G) (w : ZMod q) :
    keyOfHex (hexEnc (secretToBytes pc (.dlog w : Secret G q))) = some w := by
  rw [secretToBytes, keyOfHex, hexDec_hexEnc]
  simp only [Option.bind_eq_bind, Option.bind_some]
  rw [if_pos (scalarBytes_length w), keyOfBytes_scalarBytes hq]

/-- C80: the JSON form of a secret is read back. -/
theorem C80_json_roundtrip [NeZero q] (hq : q ≤ 2 ^ 256) (pc : PointCodec G) (s : Secret G q) :
    readSecret pc (writeSecret pc s) = .ok s := by
  cases s with
  | dlog w => simp only [writeSecret, readSecret, readWscalar_write hq]
  | dht w g h u v =>
    have h1 : (readWscalar (writeSecret pc (.dht w g h u v)) : Outcome (ZMod q)) = .err := rfl
    rw [readSecret, h1]
    simp only [writeSecret, readDhtSecret]
    have r1 : req [kSecret] [(kSecret, Json.str (hexEnc (scalarBytes w))), (kG, writePoint pc g), (kH, writePoint pc h),
      (kU, writePoint pc u), (kV, writePoint pc v)] = .ok (.str (hexEnc (scalarBytes w))) := rfl
    have r2 : req [kG] [(kSecret, Json.str (hexEnc (scalarBytes w))), (kG, writePoint pc g), (kH, writePoint pc h),
      (kU, writePoint pc u), (kV, writePoint pc v)] = .ok (writePoint pc g) := rfl
    have r3 : req [kH] [(kSecret, Json.str (hexEnc (scalarBytes w))), (kG, writePoint pc g), (kH, writePoint pc h),
      (kU, writePoint pc u), (kV, writePoint pc v)] = .ok (writePoint pc h) := rfl
    have r4 : req [kU] [(kSecret, Json.str (hexEnc (scalarBytes w))), (kG, writePoint pc g), (kH, writePoint pc h),
      (kU, writePoint pc u), (kV, writePoint pc v)] = .ok (writePoint pc u) := rfl
    have r5 : req [kV] [(kSecret, Json.str (hexEnc (scalarBytes w))), (kG, writePoint pc g), (kH, writePoint pc h),
      (kU, writePoint pc u), (kV, writePoint pc v)] = .ok (writePoint pc v) := rfl
    rw [r1, r2, r3, r4, r5]
    simp only [json_bind_ok, readWscalar_write hq, readPoint_write, Outcome.bind_ok, Outcome.pure_eq]

/-- C80: 32 bytes that are a secret are the same secret as a JSON text. -/
theorem C80_json_agrees [NeZero q] (pc : PointCodec G) (bs : Bytes) (w : ZMod q) (h : secretOfBytes pc bs = some (.dlog w)) :
    readSecret pc (.str (hexEnc bs)) = .ok (.dlog w : Secret G q) := by
  rcases C80_bytes_reads pc bs _ h with ⟨hl, e, hlt⟩ | ⟨_, _, g, h', u, v, e, _⟩
  · cases e
    unfold readSecret readWscalar
    rw [readHex_hex, Outcome.bind_ok, if_pos hl]
    rfl
  · cases e

/-- C80, negation: bytes of a number outside of the group, which the byte reader refuses, are accepted in JSON and reduced, so that
they stand for another number. -/
theorem C80_json_violates [NeZero q] (pc : PointCodec G) (bs : Bytes) (hl : bs.length = 32) (hb : q ≤ Sigma.beNat bs) :
    (secretOfBytes pc bs : Option (Secret G q)) = none ∧
    ∃ w : ZMod q, readSecret pc (.str (hexEnc bs)) = .ok (.dlog w) ∧ scalarBytes w ≠ bs := by
  refine ⟨?_, (Sigma.beNat bs : ZMod q), ?_, ?_⟩
  · rw [secretOfBytes, if_pos hl, keyOfBytes, if_neg (by omega)]
    rfl
  · unfold readSecret readWscalar
    rw [readHex_hex, Outcome.bind_ok, if_pos hl]
    rfl
  · intro e
    have h1 := congrArg Sigma.beNat e
    have hv := ZMod.val_lt (Sigma.beNat bs : ZMod q)
    have h2 := Sigma.beNat_lt bs
    rw [hl] at h2
    rw [scalarBytes, Sigma.beNat_natBe 32 _ (by omega)] at h1
    omega

/-- The hypotheses can be met: the bytes of the number 3 for a group of order 3. -/
example : (List.replicate 31 (0 : Byte) ++ [3]).length = 32 ∧ 3 ≤ Sigma.beNat (List.replicate 31 (0 : Byte) ++ [3]) := by decide

/-! ## Addresses and spending -/

variable [AddCommGroup G] [Module (ZMod q) G] {B T : Type}

/-- C80: the address of a secret has a script, and this script is the public image of the secret, as a constant. -/
theorem C80_address (E : Sers G B T) (M : Byte → Byte → Option FuncSig) (C : Curve G) (s : Secret G q) :
    ∃ a t, secretAddress E M C s = .ok a ∧ Address.script E M a = .ok t ∧
      t.proposition E M = .ok (.const { tpe := .sigmaProp, v := .sigmaProp (s.image C).toSB }) := by
  cases s with
  | dlog w =>
    obtain ⟨t, h1, -, -, -⟩ := C61_p2pk E M (publicImage C w)
    refine ⟨_, t, rfl, h1, ?_⟩
    cases h1
    rfl
  | dht w g h u v =>
    have hc : ∀ s, Expr.parse E { consts := [], subst := false, methods := M } ([] : Expr.TStore) (0x08 :: s) =
        (Constant.parse E.utf8 E.pc E.bc >>= fun c => (pure (Expr.const c, []) : Parser (Expr G B × Expr.TStore))) (0x08 :: s) :=
      fun s => rfl
    obtain ⟨bs, h1, h2⟩ := ETree.constant_rto E (bwf := fun _ => False) (fun _ h => h.elim)
      ({ tpe := .sigmaProp, v := .sigmaProp (.dht g h u v) } : Constant G B) (by
        refine ⟨?_, ?_, ?_⟩ <;> simp [WfType, NoFunc, WellTyped, SigmaBoolean.Bounded])
    cases h1
    have h3 := h2 []
    rw [List.append_nil] at h3
    refine ⟨.p2s (0x00 :: 0x08 :: 0xCE :: (putPoint E.pc g ++ putPoint E.pc h ++ putPoint E.pc u ++ putPoint E.pc v)),
      .parsed (TreeHeader.v0 false) [] (.const { tpe := .sigmaProp, v := .sigmaProp (.dht g h u v) }), rfl, ?_, rfl⟩
    have hb : ETree.parseBody E M (TreeHeader.v0 false) []
        (0x08 :: 0xCE :: (putPoint E.pc g ++ putPoint E.pc h ++ putPoint E.pc u ++ putPoint E.pc v)) =
        some ((.parsed (TreeHeader.v0 false) [] (.const { tpe := .sigmaProp, v := .sigmaProp (.dht g h u v) }), []), []) := by
      unfold ETree.parseBody
      rw [if_neg (by decide), Parser.bind_some (a := ([] : List (Constant G B)))
          (s' := 0x08 :: 0xCE :: (putPoint E.pc g ++ putPoint E.pc h ++ putPoint E.pc u ++ putPoint E.pc v)) (by rfl),
        Parser.bind_some (a := (Expr.const { tpe := .sigmaProp, v := .sigmaProp (.dht g h u v) }, [])) (s' := [])]
      · rfl
      · rw [hc]
        exact Parser.bind_some h3
    show (match (match ETree.parseBody E M (TreeHeader.v0 false) []
          (0x08 :: 0xCE :: (putPoint E.pc g ++ putPoint E.pc h ++ putPoint E.pc u ++ putPoint E.pc v)) with
        | some x => if x.2 = [] then some x.1.1 else some (ETree.unparsed
            (0x00 :: 0x08 :: 0xCE :: (putPoint E.pc g ++ putPoint E.pc h ++ putPoint E.pc u ++ putPoint E.pc v)))
        | none => some (ETree.unparsed
            (0x00 :: 0x08 :: 0xCE :: (putPoint E.pc g ++ putPoint E.pc h ++ putPoint E.pc u ++ putPoint E.pc v)))) with
      | some t => Outcome.ok t
      | none => .err) = _
    rw [hb]
    rfl

omit [Module (ZMod q) G] in
theorem image_nt [Module (ZMod q) G] (C : Curve G) (s : Secret G q) : NoTrivial (s.image C).toSB ∧ (s.image C).toSB.Bounded ∧
    ThrOk (s.image C).toSB ∧ OrDistinct (s.image C).toSB := by
  cases s <;> simp [Secret.image, LeafProp.toSB, NoTrivial, SigmaBoolean.Bounded, ThrOk, OrDistinct]

/-- C80: a prover holding a secret whose tuple belongs to its number (every number on its own, every tuple made by `random`) makes a
proof of the public image that the verifier accepts, for every message and whatever other secrets it holds. -/
theorem C80_spends_partial [NeZero q] (hq : q ≤ 2 ^ 256) (E : ProverEnv G q) (hh : E.hints = []) (hone : E.curve.codec.one = 0)
    (hs : SecretsOk E.secrets) (s : Secret G q) (hm : s ∈ E.secrets) (message : Bytes) :
    ∃ sig, generateProof E (s.image E.curve).toSB message = .ok sig ∧
      verifySignature q E.curve (s.image E.curve).toSB message sig = .ok true := by
  obtain ⟨h1, h2, h3, h4⟩ := image_nt E.curve s
  refine C21_accepted_partial hq E hh hone hs _ h1 h2 h3 h4 ?_ message
  cases s with
  | dlog w =>
    simp only [Secret.image, LeafProp.toSB, holds, provableWith, List.any_eq_true]
    refine ⟨_, hm, ?_⟩
    have := publicImage_eq E.curve hone w
    simp only [publicImage] at this
    simp [this]
  | dht w g h u v =>
    simp only [Secret.image, LeafProp.toSB, holds, provableWith, List.any_eq_true]
    exact ⟨_, hm, by simp⟩

/-- C80: the tuples made by `DhTupleProverInput::random` belong to their numbers. -/
theorem C80_random (C : Curve G) (hone : C.codec.one = 0) (x w : ZMod q) : SecretsOk [randomDht C x w] := by
  intro s hs
  rw [List.mem_singleton] at hs
  subst hs
  have key : ∀ (b : G) (z : ZMod q), expo C b z = z • b := fun b z => by
    have := publicImage_eq { C with gen := b } (by simpa using hone) z
    simpa [publicImage, expo] using this
  simp only [randomDht, key]
  exact ⟨trivial, trivial⟩

end

/-- A secret whose tuple does not belong to its number: 1 as the secret of (1, 2, 2, 1). -/
def wrongSecret : Secret (ZMod 3) 3 := .dht 1 1 2 2 1

/-- C80, negation: the readers do not compare the tuple with the number.  A secret is read for which the prover makes a proof of its
public image that the verifier rejects. -/
theorem C80_inconsistent_violates :
    secretOfBytes toyCurve.codec (secretToBytes toyCurve.codec wrongSecret) = some wrongSecret ∧
    readSecret toyCurve.codec (writeSecret toyCurve.codec wrongSecret) = .ok wrongSecret ∧
    ∃ sig, generateProof ⟨toyCurve, [wrongSecret], [], toyRnd⟩ (wrongSecret.image toyCurve).toSB [7] = .ok sig ∧
      verifySignature 3 toyCurve (wrongSecret.image toyCurve).toSB [7] sig = .ok false := by
  refine ⟨C80_bytes_roundtrip (by norm_num) _ _, C80_json_roundtrip (by norm_num) _ _,
    (match generateProof ⟨toyCurve, [wrongSecret], [], toyRnd⟩ (wrongSecret.image toyCurve).toSB [7] with | .ok s => s | _ => []),
    by decide +kernel, by decide +kernel⟩

/-- Hypotheses of `C80_spends_partial` for the toy prover. -/
example : toyProver.hints = [] ∧ toyProver.curve.codec.one = 0 ∧ SecretsOk toyProver.secrets ∧
    (.dht 2 1 2 2 1 : Secret (ZMod 3) 3) ∈ toyProver.secrets := by
  refine ⟨rfl, rfl, ?_, by simp [toyProver]⟩
  intro s hs
  simp only [toyProver, List.mem_cons, List.not_mem_nil, or_false] at hs
  rcases hs with rfl | rfl
  · trivial
  · exact ⟨by decide, by decide⟩

end Verif
