import Verif.Proofs.BoxBuilder
import Verif.Props.Register
import Verif.Props.ErgoTree
import Verif.Model.TxBuilder

/-! # C97: the box builder makes the box that was asked for -/

set_option linter.unusedSimpArgs false
set_option linter.unusedVariables false

namespace Verif
open Spec BoxBuilder

section
variable {G B T : Type}

/-- C97: `value()`, `min_box_value_per_byte()` and `register_value()` answer with what the last call about it set. -/
theorem C97_getters (v : Nat) (t : T) (h : BitVec 32) (l : List (BoxCall G B)) :
    (called v t h l).value = askedValue v l ∧ (called v t h l).perByte.toNat = askedPerByte l ∧
    ∀ r, (called v t h l).regValue r = askedReg l r := by
  obtain ⟨h1, h2, _, _, _, _, _, h8⟩ := called_fields v t h l
  exact ⟨h2, h1, h8⟩

variable [DecidableEq G]

/-- C97: `build()` succeeds exactly when the request is allowed, the box can be serialized and its value covers its size times the
minimal value per byte; the result holds what was asked for and nothing else.  The size is that of the candidate and below 2 GiB. -/
theorem C97_build (m : Mode) (E : Sers G B T) (v : Nat) (t : T) (h : BitVec 32) (l : List (BoxCall G B)) (c : BoxCand G B T)
    (hs : ∀ bytes, c.ser E = .ok bytes → bytes.length < 2 ^ 31) :
    (called v t h l).build m E = .ok c ↔
      Allowed l ∧ IsAsked v t h l c ∧
      ∃ bytes, c.ser E = .ok bytes ∧ 10800 ≤ bytes.length * askedPerByte l ∧ bytes.length * askedPerByte l ≤ askedValue v l := by
  have hu := buildUnchecked_iff v t h l
  obtain ⟨h1, h2, _, _, _, _, _, _⟩ := called_fields v t h l
  have hfit : ∀ bytes : Bytes, bytes.length < 2 ^ 31 → bytes.length * (called v t h l).perByte.toNat < 2 ^ 63 := by
    intro bytes hb
    have hp := (called v t h l).perByte.isLt
    calc bytes.length * (called v t h l).perByte.toNat ≤ bytes.length * 2 ^ 32 := Nat.mul_le_mul_left _ (by omega)
      _ < 2 ^ 31 * 2 ^ 32 := by omega
      _ = 2 ^ 63 := by decide
  constructor
  · intro hb
    have hb' := hb
    unfold build at hb
    obtain ⟨c', e1, e2⟩ := Outcome.bind_eq_ok.1 hb
    obtain ⟨bytes, e3, e4⟩ := Outcome.bind_eq_ok.1 e2
    obtain ⟨w, e5, e6⟩ := Outcome.bind_eq_ok.1 e4
    have hc : c' = c := by
      by_cases hv : (called v t h l).value ≥ w
      · rw [if_pos hv] at e6; cases e6; rfl
      · rw [if_neg hv] at e6; cases e6
    subst hc
    obtain ⟨ha, hi⟩ := (hu c').1 e1
    rw [build_eq m E _ c' bytes e1 e3 (hfit bytes (hs bytes e3)), h1, h2] at hb'
    refine ⟨ha, hi, bytes, e3, ?_⟩
    generalize bytes.length * askedPerByte l = k at *
    by_cases hk : 10800 ≤ k
    · rw [if_pos hk] at hb'
      by_cases hk' : k ≤ askedValue v l
      · exact ⟨hk, hk'⟩
      · rw [if_neg hk'] at hb'; cases hb'
    · rw [if_neg hk] at hb'; cases hb'
  · rintro ⟨ha, hi, bytes, e3, hk, hk'⟩
    rw [build_eq m E _ c bytes ((hu c).2 ⟨ha, hi⟩) e3 (hfit bytes (hs bytes e3)), h1, h2, if_pos hk, if_pos hk']

/-- C97: a request that is not allowed is refused with an error by `build()`, `calc_box_size_bytes()` and `calc_min_box_value()`,
never with a panic. -/
theorem C97_refused (m : Mode) (E : Sers G B T) (v : Nat) (t : T) (h : BitVec 32) (l : List (BoxCall G B)) (ha : ¬ Allowed l) :
    (called v t h l).build m E = .err ∧ (called v t h l).calcSize E = .err ∧ (called v t h l).calcMin m E = .err := by
  have hn := buildUnchecked_no_panic (called v t h l)
  have he : (called v t h l).buildUnchecked = .err := by
    cases hh : (called v t h l).buildUnchecked with
    | panic => exact absurd hh hn
    | err => rfl
    | ok c => exact absurd ((buildUnchecked_iff v t h l c).1 hh).1 ha
  unfold build calcMin calcSize
  rw [he]
  exact ⟨rfl, rfl, rfl⟩

/-- C97: a minted token is the only token of the box, and R4, R5, R6 hold its name, its description and the digits of its number
of decimals; the registers from R7 on are those set by the calls. -/
theorem C97_minted (m : Mode) (E : Sers G B T) (v : Nat) (t : T) (h : BitVec 32) (l : List (BoxCall G B)) (c : BoxCand G B T)
    (hb : (called v t h l).build m E = .ok c) (mt : Minting) (hm : askedMint l = some mt) :
    c.tokens = some [mt.token] ∧
    c.regs.getConstant .R4 = .ok (some (byteColl mt.name)) ∧ c.regs.getConstant .R5 = .ok (some (byteColl mt.desc)) ∧
    (∃ ds : List Char, ds ≠ [] ∧ (∀ ch ∈ ds, '0' ≤ ch ∧ ch ≤ '9') ∧ digitsValue ds = mt.decimals ∧
      c.regs.getConstant .R6 = .ok (some (byteColl (ds.map fun ch => BitVec.ofNat 8 ch.toNat)))) ∧
    ∀ r : NmId, 7 ≤ r.toNat → c.regs.getConstant r = .ok (askedReg l r) := by
  unfold build at hb
  obtain ⟨c', e1, e2⟩ := Outcome.bind_eq_ok.1 hb
  obtain ⟨bytes, e3, e4⟩ := Outcome.bind_eq_ok.1 e2
  obtain ⟨w, e5, e6⟩ := Outcome.bind_eq_ok.1 e4
  have hc : c' = c := by
    by_cases hv : (called v t h l).value ≥ w
    · rw [if_pos hv] at e6; cases e6; rfl
    · rw [if_neg hv] at e6; cases e6
  subst hc
  obtain ⟨ha, hi⟩ := (buildUnchecked_iff v t h l c').1 e1
  have hreg : ∀ r : NmId, c'.regs.getConstant r = .ok (wantedReg l r) := by
    intro r
    have := hi.regs r
    rw [Regs.toMap_get] at this
    unfold Regs.getConstant
    rw [show NmId.startIndex = 4 from rfl, this]
    cases wantedReg l r <;> rfl
  have hw : ∀ r, wantedReg l r = match r with
      | .R4 => some (byteColl mt.name)
      | .R5 => some (byteColl mt.desc)
      | .R6 => some (byteColl (decimalBytes mt.decimals))
      | r => askedReg l r := by
    intro r
    unfold wantedReg
    rw [hm]
    cases r <;> rfl
  refine ⟨?_, ?_, ?_, ?_, ?_⟩
  · have h1 := hi.tokens
    unfold wantedTokens at h1
    rw [(ha.mint (by rw [hm]; rfl)).1, hm] at h1
    cases ht : c'.tokens with
    | none => rw [ht] at h1; cases h1
    | some x => rw [ht] at h1; exact congrArg some h1
  · rw [hreg, hw]
  · rw [hreg, hw]
  · refine ⟨decimal mt.decimals, decimal_ne_nil _, decimal_digits _, digitsValue_decimal _, ?_⟩
    rw [hreg, hw]; rfl
  · intro r hr
    rw [hreg, hw]
    cases r <;> first | rfl | (exfalso; revert hr; decide)

/-- C97, violation: in release builds the product of size and minimal value per byte wraps, so a box too large for its product to
fit is given a minimal value of the remainder modulo 2^64; debug builds panic. -/
theorem C97_overflow_violates (n k w : Nat) (p : BitVec 32) (h : n * p.toNat = 2 ^ 64 * (k + 1) + w) (h1 : 10800 ≤ w) (h2 : w < 2 ^ 63) :
    minValueFor .release n p = .ok w ∧ minValueFor .debug n p = .panic := by
  refine ⟨?_, minValueFor_debug n p (by omega)⟩
  unfold minValueFor mulI64
  have e : ((n : Int) * (p.toNat : Int)) = ((n * p.toNat : Nat) : Int) := by push_cast; rfl
  rw [e, h, if_neg (by omega)]
  have ew : (BitVec.ofInt 64 ((2 ^ 64 * (k + 1) + w : Nat) : Int)).toInt = (w : Int) := by
    rw [BitVec.toInt_ofInt, Int.bmod_def]
    have : (((2 ^ 64 * (k + 1) + w : Nat) : Int)) % (2 ^ 64 : Nat) = w := by omega
    rw [this, if_pos (by omega)]
  simp only [ew, Outcome.bind_ok]
  unfold BoxValue.tryFromI64
  have : (BoxValue.minRaw : Int) = 10800 := rfl
  rw [this, if_pos (by omega)]
  simp

example : minValueFor .release (2 ^ 33 + 1) (2 ^ 31) = .ok (2 ^ 31) ∧ minValueFor .debug (2 ^ 33 + 1) (2 ^ 31) = .panic :=
  C97_overflow_violates (2 ^ 33 + 1) 0 (2 ^ 31) (2 ^ 31) (by decide) (by decide) (by decide)

/-! ## The minimal value -/

/-- C97: when the value is set to what `calc_min_box_value()` answers, `build()` succeeds exactly when the new value takes no more
bytes than the old one: it is below every power of 128 that the old value is below. -/
theorem C97_min_value_partial (m : Mode) (E : Sers G B T) (b : BoxBuilder G B T) (n mv : Nat) (hv : b.value < 2 ^ 64)
    (hn : b.calcSize E = .ok n) (hf : (n + 9) * b.perByte.toNat < 2 ^ 63) (hm : b.calcMin m E = .ok mv)
    (hp : 10800 ≤ (n - 9) * b.perByte.toNat) :
    (∃ c, (b.setValue mv).build m E = .ok c) ↔ ∀ k, b.value < 128 ^ (k + 1) → mv < 128 ^ (k + 1) := by
  obtain ⟨k, hk3, hk, hsz⟩ := calcSize_setValue E b n hn
  have hle : n * b.perByte.toNat ≤ (n + 9) * b.perByte.toNat := Nat.mul_le_mul_right _ (by omega)
  rw [calcMin_eq m E b n hn (by omega)] at hm
  by_cases h10 : 10800 ≤ n * b.perByte.toNat
  · rw [if_pos h10] at hm
    cases hm
    have hp1 := vlen_pos b.value
    have hp2 := vlen_le (n * b.perByte.toNat)
    have hp3 := vlen_pos (n * b.perByte.toNat)
    have hp4 := vlen_le b.value
    have hfit : (vlen (n * b.perByte.toNat) + k) * b.perByte.toNat ≤ (n + 9) * b.perByte.toNat :=
      Nat.mul_le_mul_right _ (by omega)
    have hlow : (n - 9) * b.perByte.toNat ≤ (vlen (n * b.perByte.toNat) + k) * b.perByte.toNat :=
      Nat.mul_le_mul_right _ (by omega)
    rw [build_ok_iff m E (b.setValue (n * b.perByte.toNat)) _ (hsz _) (Nat.lt_of_le_of_lt hfit hf),
      ← vlen_le_vlen_iff (by omega) hv]
    show 10800 ≤ _ * b.perByte.toNat ∧ _ * b.perByte.toNat ≤ n * b.perByte.toNat ↔ _
    have hpos : 0 < b.perByte.toNat := by
      rcases Nat.eq_zero_or_pos b.perByte.toNat with h0 | h0
      · rw [h0] at h10; omega
      · exact h0
    constructor
    · rintro ⟨_, h2⟩
      have := Nat.le_of_mul_le_mul_right h2 hpos
      omega
    · intro h2
      exact ⟨by omega, Nat.mul_le_mul_right _ (by omega)⟩
  · rw [if_neg h10] at hm; cases hm

/-- C97: setting the value to what `calc_min_box_value()` answers three times in a row is enough for `build()` to succeed. -/
theorem C97_min_value_thrice (m : Mode) (E : Sers G B T) (b : BoxBuilder G B T) (n : Nat)
    (hn : b.calcSize E = .ok n) (hf : (n + 9) * b.perByte.toNat < 2 ^ 63) (hp : 10800 ≤ (n - 9) * b.perByte.toNat) :
    ∃ b' c, raise m E 3 b = .ok b' ∧ b'.build m E = .ok c := by
  obtain ⟨k, hk3, hk, hsz⟩ := calcSize_setValue E b n hn
  have hp1 := vlen_pos b.value
  have hp4 := vlen_le b.value
  have hpos : 0 < b.perByte.toNat := by
    rcases Nat.eq_zero_or_pos b.perByte.toNat with h0 | h0
    · rw [h0] at hp; omega
    · exact h0
  -- sizes of all intermediate boxes are in range
  have hr : ∀ w, 10800 ≤ (vlen w + k) * b.perByte.toNat ∧ (vlen w + k) * b.perByte.toNat < 2 ^ 63 := by
    intro w
    have h1 := vlen_pos w
    have h2 := vlen_le w
    have hfit : (vlen w + k) * b.perByte.toNat ≤ (n + 9) * b.perByte.toNat := Nat.mul_le_mul_right _ (by omega)
    have hlow : (n - 9) * b.perByte.toNat ≤ (vlen w + k) * b.perByte.toNat := Nat.mul_le_mul_right _ (by omega)
    omega
  have hstep : ∀ w, (b.setValue w).calcMin m E = .ok ((vlen w + k) * b.perByte.toNat) := by
    intro w
    have := calcMin_eq m E (b.setValue w) _ (hsz w) (hr w).2
    rw [this]
    exact if_pos (hr w).1
  have hfirst : b.calcMin m E = .ok ((vlen b.value + k) * b.perByte.toNat) := by
    have h0 := hr b.value
    rw [← hk] at h0 ⊢
    rw [calcMin_eq m E b n hn h0.2]
    exact if_pos h0.1
  generalize hv1 : (vlen b.value + k) * b.perByte.toNat = v1 at *
  generalize hv2 : (vlen v1 + k) * b.perByte.toNat = v2 at *
  generalize hv3 : (vlen v2 + k) * b.perByte.toNat = v3 at *
  have hset : ∀ w w', (b.setValue w).setValue w' = b.setValue w' := fun _ _ => rfl
  have r1 := hr b.value
  have r2 := hr v1
  have r3 := hr v2
  rw [hv1] at r1; rw [hv2] at r2; rw [hv3] at r3
  have hbuild : ∃ c, (b.setValue v3).build m E = .ok c := by
    rw [build_ok_iff m E (b.setValue v3) _ (hsz v3) (hr v3).2]
    refine ⟨(hr v3).1, ?_⟩
    show _ * b.perByte.toNat ≤ v3
    refine Nat.le_trans (Nat.mul_le_mul_right _ ?_) (Nat.le_of_eq hv3)
    have l0 := vlen_pos b.value
    have l1 := vlen_pos v1
    have l2 := vlen_pos v2
    have u1 := vlen_le v1
    have u2 := vlen_le v2
    -- `v3` takes at most one byte more than `v1`
    have g : v3 ≤ 4 * v1 := by
      rw [← hv3, ← hv1, ← Nat.mul_assoc]
      exact Nat.mul_le_mul_right _ (by omega)
    have h13 : vlen v3 ≤ vlen v1 + 1 := by
      obtain ⟨j, hj⟩ : ∃ j, vlen v1 = j + 1 := ⟨vlen v1 - 1, by omega⟩
      rw [hj, vlen_le_iff (by omega)]
      have := (vlen_le_iff (v := v1) (by omega) j).1 (by omega)
      have e : 128 ^ (j + 1 + 1) = 128 ^ (j + 1) * 128 := by rw [Nat.pow_succ]
      omega
    by_cases h21 : vlen v2 ≤ vlen v1
    · have : v3 ≤ v2 :=
        Nat.le_trans (Nat.le_of_eq hv3.symm) (Nat.le_trans (Nat.mul_le_mul_right _ (by omega)) (Nat.le_of_eq hv2))
      have : vlen v3 ≤ vlen v2 := by
        rw [vlen_le_vlen_iff (by omega) (by omega)]
        intro q hq; omega
      omega
    · omega
  obtain ⟨c, hc⟩ := hbuild
  refine ⟨b.setValue v3, c, ?_, hc⟩
  show (b.calcMin m E >>= fun v => raise m E 2 (b.setValue v)) = _
  rw [hfirst, Outcome.bind_ok]
  show ((b.setValue v1).calcMin m E >>= fun v => raise m E 1 ((b.setValue v1).setValue v)) = _
  rw [hstep, hv2, Outcome.bind_ok, hset]
  show ((b.setValue v2).calcMin m E >>= fun v => raise m E 0 ((b.setValue v2).setValue v)) = _
  rw [hstep, hv3, Outcome.bind_ok, hset]
  rfl

/-- C97: the box made from a candidate has the candidate's bytes followed by the transaction id and the index. -/
theorem C97_box_size (E : Sers G B T) (c : BoxCand G B T) (txId : Bytes) (index : BitVec 16) (bx : EBox G B T) (bytes : Bytes)
    (h : EBox.ofCand E c txId index = .ok bx) (hb : c.ser E = .ok bytes) :
    bx.ser E = .ok (bytes ++ txId ++ putU16 index) := by
  unfold EBox.ofCand at h
  obtain ⟨id, _, h2⟩ := Outcome.bind_eq_ok.1 h
  cases h2
  unfold BoxCand.ser BoxCand.serWith at hb
  obtain ⟨tb, h3, h4⟩ := Outcome.bind_eq_ok.1 hb
  unfold EBox.ser
  simp only
  rw [h3, Outcome.bind_ok, h4, Outcome.bind_ok]
  rfl

/-- C97, violation: with the settings of a new builder, `build()`, and `calc_min_box_value()` panic for every box without tokens
and registers whose script takes at most twelve bytes, whatever its value. -/
theorem C97_small_box_panics_violates (m : Mode) (E : Sers G B T) (v : Nat) (t : T) (h : BitVec 32) (tb : Bytes)
    (ht : E.tc.ser t = .ok tb) (hl : tb.length ≤ 12) :
    (BoxBuilder.new v t h : BoxBuilder G B T).build m E = .panic ∧ (BoxBuilder.new v t h : BoxBuilder G B T).calcMin m E = .panic := by
  have hu : (BoxBuilder.new v t h : BoxBuilder G B T).buildUnchecked =
      .ok { value := v, tree := t, tokens := none, regs := [], height := h } := rfl
  have hser : BoxCand.ser E { value := v, tree := t, tokens := none, regs := [], height := h } =
      .ok (BoxValue.ser v ++ tb ++ putU32 h ++ [0] ++ [] ++ [0]) := by
    unfold BoxCand.ser BoxCand.serWith
    simp only
    rw [ht, Outcome.bind_ok]
    rfl
  have hlen : (BoxValue.ser v ++ tb ++ putU32 h ++ [0] ++ [] ++ [0]).length < 30 := by
    have h1 := (putU64_length (BitVec.ofNat 64 v)).2
    have h2 := (putU64_length_le_iff _ 4 (h.setWidth 64) rfl).2 (by
      have := h.isLt
      simp only [BitVec.toNat_setWidth]
      have e : h.toNat % 2 ^ 64 = h.toNat := Nat.mod_eq_of_lt (by omega)
      rw [e]
      calc h.toNat < 2 ^ 32 := this
        _ ≤ 128 ^ (4 + 1) := by decide)
    simp only [List.length_append, List.length_cons, List.length_nil, BoxValue.ser, putU32]
    omega
  generalize BoxValue.ser v ++ tb ++ putU32 h ++ [0] ++ [] ++ [0] = bs at *
  have hp : (BoxBuilder.new v t h : BoxBuilder G B T).perByte.toNat = 360 := rfl
  constructor
  · rw [build_eq m E _ _ _ hu hser (by rw [hp]; omega), hp, if_neg (by omega)]
  · have : (BoxBuilder.new v t h : BoxBuilder G B T).calcSize E = .ok bs.length := by
      unfold calcSize
      rw [hu, Outcome.bind_ok, hser, Outcome.bind_ok]
      rfl
    rw [calcMin_eq m E _ _ this (by rw [hp]; omega), hp, if_neg (by omega)]

/-- C97, violation: with a minimal value of zero per byte `build()` panics for every allowed request that can be serialized, instead of
accepting every value. -/
theorem C97_zero_per_byte_violates (m : Mode) (E : Sers G B T) (v : Nat) (t : T) (h : BitVec 32) (l : List (BoxCall G B))
    (ha : Allowed l) (c : BoxCand G B T) (hi : IsAsked v t h l c) (bytes : Bytes) (hb : c.ser E = .ok bytes) (hz : askedPerByte l = 0) :
    (called v t h l).build m E = .panic := by
  obtain ⟨h1, h2, _, _, _, _, _, _⟩ := called_fields v t h l
  rw [build_eq m E _ c bytes ((buildUnchecked_iff v t h l c).2 ⟨ha, hi⟩) hb (by rw [h1, hz]; simp), h1, hz]
  rfl

end

/-! ## The builder inside the transaction builder -/

/-- C97: the candidates made by the transaction builder are those of the box builder: with `env.size` the size of the serialized
candidate, `buildCandidate` is `build()` of a new builder with the tokens added. -/
theorem C97_in_tx_builder {G B : Type} [DecidableEq G] (m : Mode) (E : Sers G B Bytes) (env : TxEnv) (v : Nat) (tree : Bytes)
    (h : BitVec 32) (toks : List Token)
    (he : ∀ c : Candidate, c.assets.value = v → c.tree = tree → c.height = h.toNat → c.assets.tokens.getD [] = toks →
      match BoxCand.ser E { value := v, tree := tree, tokens := c.assets.tokens, regs := [], height := h } with
      | .ok bytes => env.size c = some bytes.length ∧ bytes.length < 2 ^ 31
      | .err => env.size c = none
      | .panic => False) :
    buildCandidate env v tree h.toNat toks =
      ((called v tree h (toks.map fun t => (BoxCall.addToken t : BoxCall G B))).build m E >>= fun c =>
        .ok { assets := { value := c.value, tokens := c.tokens }, tree := c.tree, height := c.height.toNat }) := by
  have hb : called v tree h (toks.map fun t => (BoxCall.addToken t : BoxCall G B)) =
      { (BoxBuilder.new v tree h : BoxBuilder G B Bytes) with tokens := toks } := by
    unfold called
    have : ∀ (l l0 : List Token), (l.map fun t => (BoxCall.addToken t : BoxCall G B)).foldl BoxCall.on
        ({ (BoxBuilder.new v tree h : BoxBuilder G B Bytes) with tokens := l0 }) =
        { (BoxBuilder.new v tree h : BoxBuilder G B Bytes) with tokens := l0 ++ l } := by
      intro l
      induction l with
      | nil => intro l0; simp
      | cons a l ih =>
        intro l0
        simp only [List.map_cons, List.foldl_cons]
        have := ih (l0 ++ [a])
        rw [List.append_assoc] at this
        exact this
    exact this toks []
  rw [hb]
  unfold buildCandidate build buildUnchecked
  have hm : (({ (BoxBuilder.new v tree h : BoxBuilder G B Bytes) with tokens := toks }) : BoxBuilder G B Bytes).withMinted =
    .ok (toks, []) := rfl
  rw [hm, Outcome.bind_ok]
  simp only [show Regs.new ([] : FMap NmId (Constant G B)) = some [] from rfl]
  unfold boxTokensOf
  by_cases hl : toks.length > maxTokensCount
  · rw [if_pos hl]
    cases toks with
    | nil => exact absurd hl (by decide)
    | cons a l =>
      simp only [List.isEmpty_cons, Bool.false_eq_true, if_false]
      rw [if_neg (by omega)]
      rfl
  · rw [if_neg hl]
    have hcase : (if toks.isEmpty then some none else if toks.length ≤ maxTokensCount then some (some toks) else none) =
        some (if toks.isEmpty then none else some toks) := by
      cases toks with
      | nil => rfl
      | cons a l =>
        simp only [List.isEmpty_cons, Bool.false_eq_true, if_false]
        rw [if_pos (by omega)]
    rw [hcase]
    simp only [Outcome.pure_eq, Outcome.bind_ok]
    have hx := he { assets := { value := v, tokens := if toks.isEmpty then none else some toks }, tree := tree, height := h.toNat }
      rfl rfl rfl (by cases toks <;> rfl)
    simp only at hx
    show _ = (BoxCand.ser E { value := v, tree := tree, tokens := if toks.isEmpty then none else some toks, regs := [], height := h } >>= _)
      >>= _
    cases hs : BoxCand.ser E { value := v, tree := tree, tokens := if toks.isEmpty then none else some toks, regs := [], height := h } with
    | err => rw [hs] at hx; simp only at hx; rw [hx]; rfl
    | panic => rw [hs] at hx; exact hx.elim
    | ok bytes =>
      rw [hs] at hx
      simp only at hx
      rw [hx.1, Outcome.bind_ok]
      have hp : (({ (BoxBuilder.new v tree h : BoxBuilder G B Bytes) with tokens := toks }) : BoxBuilder G B Bytes).perByte.toNat = 360 :=
        rfl
      rw [minValueFor_fits m _ _ (by rw [hp]; omega), hp]
      show (match BoxValue.tryFromI64 ((bytes.length * 360 : Nat) : Int) with
        | none => Outcome.panic
        | some minValue => _) = _
      have h2 := hx.2
      generalize bytes.length = n at *
      by_cases hk : 10800 ≤ n * 360
      · have : BoxValue.tryFromI64 ((n * 360 : Nat) : Int) = some (n * 360) := by
          unfold BoxValue.tryFromI64
          rw [if_pos (by show (10800 : Int) ≤ _; omega)]
          rfl
        rw [this, if_pos hk, Outcome.bind_ok]
        simp only
        by_cases hv : v ≥ n * 360
        · rw [if_pos hv]
          show _ = (if v ≥ n * 360 then _ else _) >>= _
          rw [if_pos hv]; rfl
        · rw [if_neg hv]
          show _ = (if v ≥ n * 360 then _ else _) >>= _
          rw [if_neg hv]; rfl
      · have : BoxValue.tryFromI64 ((n * 360 : Nat) : Int) = none := by
          unfold BoxValue.tryFromI64
          rw [if_neg (by show ¬ (10800 : Int) ≤ _; omega)]
        rw [this, if_neg hk]
        rfl

/-! ## Cases -/

/-- A builder with one token and a script of one byte, and the value given. -/
def demoBuilder (v : Nat) : BoxBuilder (Fin 3) Empty Byte := called v 7 5 [.addToken (List.replicate 32 0, 2 ^ 55)]

/-- Its box. -/
def demoCand (v : Nat) : BoxCand (Fin 3) Empty Byte :=
  { value := v, tree := 7, tokens := some [(List.replicate 32 0, 2 ^ 55)], regs := [], height := 5 }

/-- The bytes of its box. -/
def demoBytes (v : Nat) : Bytes :=
  BoxValue.ser v ++ [7] ++ putU32 5 ++ [1] ++ (List.replicate 32 0 ++ putU64 (BitVec.ofNat 64 (2 ^ 55)) ++ []) ++ [0]

theorem demo_unchecked (v : Nat) : (demoBuilder v).buildUnchecked = .ok (demoCand v) := rfl

theorem demo_ser (v : Nat) : (demoCand v).ser toySers = .ok (demoBytes v) := rfl

theorem vlen_eq {v k : Nat} (h : v < 2 ^ 64) (h1 : v < 128 ^ (k + 2)) (h2 : ¬ v < 128 ^ (k + 1)) : vlen v = k + 2 := by
  have e1 := (vlen_le_iff h (k + 1)).2 h1
  have e2 := mt (vlen_le_iff h k).1 h2
  omega

theorem demo_length (v : Nat) : (demoBytes v).length = vlen v + 44 := by
  have h1 : vlen (2 ^ 55) = 8 := vlen_eq (k := 6) (by decide) (by decide) (by decide)
  have h2 : (putU32 5).length = 1 := by
    unfold putU32
    rw [putU64_small _ (by decide)]
    rfl
  unfold vlen at h1
  unfold demoBytes
  simp only [List.length_append, List.length_cons, List.length_nil, List.length_replicate, h1, h2, BoxValue.ser]
  unfold vlen
  omega

theorem demo_build (m : Mode) (v k : Nat) (hk : vlen v = k) :
    (demoBuilder v).build m toySers = (if (k + 44) * 360 ≤ v then .ok (demoCand v) else .err) ∧
    (demoBuilder v).calcMin m toySers = .ok ((k + 44) * 360) := by
  have hp : (demoBuilder v).perByte.toNat = 360 := rfl
  have hv : (demoBuilder v).value = v := rfl
  have hk2 := vlen_le v
  have hs : (demoBuilder v).calcSize toySers = .ok (k + 44) := by
    unfold calcSize
    rw [demo_unchecked, Outcome.bind_ok, demo_ser, Outcome.bind_ok, demo_length, hk]
    rfl
  constructor
  · rw [build_eq m toySers _ _ _ (demo_unchecked v) (demo_ser v) (by rw [hp, demo_length]; omega), hp, demo_length, hk, hv,
      if_pos (by omega)]
  · rw [calcMin_eq m toySers _ _ hs (by rw [hp]; omega), hp, if_pos (by omega)]

/-- C97, violation: the value answered by `calc_min_box_value()` can be too low for `build()`. -/
theorem C97_min_value_violates (m : Mode) :
    (demoBuilder 10800).calcMin m toySers = .ok 16560 ∧ ((demoBuilder 10800).setValue 16560).build m toySers = .err := by
  have h1 := demo_build m 10800 2 (vlen_eq (k := 0) (by decide) (by decide) (by decide))
  have h2 := demo_build m 16560 3 (vlen_eq (k := 1) (by decide) (by decide) (by decide))
  refine ⟨h1.2, ?_⟩
  exact h2.1.trans (if_neg (by decide))

/-- C97, violation: a box built with the least value allowed lies below the minimal value per byte of the box it becomes in a
transaction, whose bytes include the transaction id and the index. -/
theorem C97_box_below_min_violates (m : Mode) (txId : Bytes) (ht : txId.length = 32) :
    ∃ bx bytes, (demoBuilder 16920).build m toySers = .ok (demoCand 16920) ∧
      EBox.ofCand toySers (demoCand 16920) txId 0 = .ok bx ∧ bx.ser toySers = .ok bytes ∧ bytes.length = 80 ∧
      bx.value < bytes.length * 360 := by
  have h2 := demo_build m 16920 3 (vlen_eq (k := 1) (by decide) (by decide) (by decide))
  have hid : ∃ bx, EBox.ofCand toySers (demoCand 16920) txId 0 = .ok bx ∧ bx.value = 16920 := ⟨_, rfl, rfl⟩
  obtain ⟨bx, hbx, hv⟩ := hid
  have hb := C97_box_size toySers _ txId 0 bx _ hbx (demo_ser 16920)
  have hl : (demoBytes 16920 ++ txId ++ putU16 0).length = 80 := by
    have e : (putU16 0).length = 1 := by
      unfold putU16
      rw [putU64_small _ (by decide)]
      rfl
    have e' : vlen 16920 = 3 := vlen_eq (k := 1) (by decide) (by decide) (by decide)
    rw [List.length_append, List.length_append, demo_length, ht, e, e']
  refine ⟨bx, _, h2.1.trans (if_pos (by decide)), hbx, hb, hl, ?_⟩
  rw [hl, hv]
  decide

/-- The box asked for is built; `C97_build` applies to it. -/
example (m : Mode) : (demoBuilder 16920).build m toySers = .ok (demoCand 16920) ∧
    Allowed ([.addToken (List.replicate 32 0, 2 ^ 55)] : List (BoxCall (Fin 3) Empty)) ∧
    askedValue 16920 ([.addToken (List.replicate 32 0, 2 ^ 55)] : List (BoxCall (Fin 3) Empty)) = 16920 := by
  have h2 := demo_build m 16920 3 (vlen_eq (k := 1) (by decide) (by decide) (by decide))
  have h3 := h2.1.trans (if_pos (by decide))
  refine ⟨h3, ?_, rfl⟩
  have hs : ∀ bytes, (demoCand 16920).ser toySers = .ok bytes → bytes.length < 2 ^ 31 := by
    intro bytes hb
    rw [demo_ser] at hb
    cases hb
    rw [demo_length]
    have := vlen_le 16920
    omega
  exact ((C97_build m toySers _ _ _ _ _ hs).1 h3).1

/-- Three rounds are enough, here from the least value of a box; one round was not (`C97_min_value_violates`). -/
example (m : Mode) : ∃ b' c, raise m toySers 3 (demoBuilder 10800) = .ok b' ∧ b'.build m toySers = .ok c := by
  have hv : vlen 10800 = 2 := vlen_eq (k := 0) (by decide) (by decide) (by decide)
  refine C97_min_value_thrice m toySers _ 46 ?_ (by decide) (by decide)
  unfold calcSize
  rw [demo_unchecked, Outcome.bind_ok, demo_ser, Outcome.bind_ok, demo_length, hv]
  rfl

/-- The calls on a builder that mints a token: a register is set and deleted again, R7 is kept. -/
def mintCalls : List (BoxCall (Fin 3) Empty) :=
  [.setReg .R4 (intConst 3), .value 1000000, .setReg .R7 (intConst 7), .delReg .R4,
   .mint { token := (List.replicate 32 1, 10), name := [65, 66], desc := [67], decimals := 12 }]

/-- Minting is allowed with these calls; without deleting R4, with a token added, or with R8 set and R7 not, it is refused. -/
example (E : Sers (Fin 3) Empty Byte) (m : Mode) : Allowed mintCalls ∧
    wantedReg mintCalls .R6 = some (byteColl (decimalBytes 12)) ∧ askedValue 5 mintCalls = 1000000 ∧
    (called 10800 (7 : Byte) 5 (mintCalls ++ [.setReg .R4 (intConst 1)])).build m E = .err ∧
    (called 10800 (7 : Byte) 5 (mintCalls ++ [.addToken (List.replicate 32 2, 1)])).build m E = .err ∧
    (called 10800 (7 : Byte) 5 ([.setReg .R8 (intConst 1)] : List (BoxCall (Fin 3) Empty))).build m E = .err := by
  refine ⟨⟨?_, ?_, ?_⟩, rfl, rfl, ?_, ?_, ?_⟩
  · intro r r' hr
    cases r <;> cases r' <;> first | (exfalso; revert hr; decide) | (intro h; exact h) | (intro _; rfl) | (intro h; cases h)
  · intro _; exact ⟨rfl, rfl, rfl, rfl⟩
  · decide
  · exact (C97_refused m E _ _ _ _ fun h => by have := (h.mint rfl).2.1; cases this).1
  · exact (C97_refused m E _ _ _ _ fun h => by have := (h.mint rfl).1; cases this).1
  · exact (C97_refused m E _ _ _ _ fun h => by have := h.noGap .R7 .R8 (by decide) rfl; cases this).1

/-- The script `sigmaProp(true)` takes three bytes: a box guarded by it cannot be built. -/
example (m : Mode) (v : Nat) (h : BitVec 32) :
    ETree.ser toySers (.parsed ⟨0, false, false⟩ [] (.const ⟨.sigmaProp, .sigmaProp (.trivial true)⟩)) = .ok [0, 8, 0xd3] ∧
    (BoxBuilder.new v (.parsed ⟨0, false, false⟩ [] (.const ⟨.sigmaProp, .sigmaProp (.trivial true)⟩)) h :
      BoxBuilder (Fin 3) Empty (ETree (Fin 3) Empty)).build m
      { utf8 := toySers.utf8, pc := toySers.pc, bc := toySers.bc, tc := ETree.codec toySers noMethods, H := toySers.H } = .panic := by
  have : ETree.ser toySers (.parsed ⟨0, false, false⟩ [] (.const ⟨.sigmaProp, .sigmaProp (.trivial true)⟩)) = .ok [0, 8, 0xd3] := by
    rfl
  exact ⟨this, (C97_small_box_panics_violates m _ v _ h [0, 8, 0xd3] this (by decide)).1⟩

/-- A minimal value of zero per byte. -/
example (m : Mode) : (called 1000000 (7 : Byte) 5 ([.perByte 0] : List (BoxCall (Fin 3) Empty))).build m toySers = .panic :=
  C97_zero_per_byte_violates m toySers _ _ _ _
    ⟨by intro r r' _ h; (cases r' <;> cases h), (by intro h; cases h), by decide⟩
    { value := 1000000, tree := 7, tokens := none, regs := [], height := 5 }
    ⟨rfl, rfl, rfl, rfl, by simp, by intro r; cases r <;> rfl, by decide⟩ _ rfl rfl

/-- The value that was answered first takes three bytes, the old one two, so building fails; from 16384 on it would succeed. -/
example (m : Mode) : (∃ c, ((demoBuilder 16384).setValue 16920).build m toySers = .ok c) := by
  have hv : vlen 16384 = 3 := vlen_eq (k := 1) (by decide) (by decide) (by decide)
  have h := demo_build m 16384 3 hv
  refine (C97_min_value_partial m toySers (demoBuilder 16384) 47 16920 (by decide) ?_ (by decide) h.2 (by decide)).2 ?_
  · unfold calcSize
    rw [demo_unchecked, Outcome.bind_ok, demo_ser, Outcome.bind_ok, demo_length, hv]
    rfl
  · intro k hk
    match k with
    | 0 => exact absurd hk (by decide)
    | 1 => exact absurd hk (by decide)
    | k + 2 =>
      have : 128 ^ 3 ≤ 128 ^ (k + 2 + 1) := Nat.pow_le_pow_right (by decide) (by omega)
      have h3 : 128 ^ 3 = 2097152 := by decide
      omega

/-- Serializers for scripts given as bytes. -/
def rawSers : Sers (Fin 3) Empty Bytes :=
  { utf8 := toySers.utf8, pc := toySers.pc, bc := toySers.bc, tc := { ser := .ok, parse := readExact 3 }, H := toySers.H }

/-- An environment of the transaction builder with the size of the serialized candidate. -/
def rawEnv : TxEnv where
  size c := match BoxCand.ser rawSers ⟨c.assets.value, c.tree, c.assets.tokens, [], BitVec.ofNat 32 c.height⟩ with
    | .ok bytes => some bytes.length
    | _ => none
  feeTree := [1]
  serializes _ _ _ := true

example (m : Mode) (tree : Bytes) (hl : tree.length ≤ 4096) (h : BitVec 32) (v : Nat) :
    buildCandidate rawEnv v tree h.toNat [] =
      ((called v tree h (([] : List Token).map fun t => (BoxCall.addToken t : BoxCall (Fin 3) Empty))).build m rawSers >>= fun c =>
        .ok { assets := { value := c.value, tokens := c.tokens }, tree := c.tree, height := c.height.toNat }) := by
  refine C97_in_tx_builder m rawSers rawEnv v tree h [] ?_
  rintro ⟨⟨cv, ct⟩, ctree, ch⟩ h1 h2 h3 h4
  simp only at h1 h2 h3 h4
  subst h1 h2 h3
  have hser : BoxCand.ser rawSers { value := cv, tree := ctree, tokens := ct, regs := [], height := h } =
      .ok (BoxValue.ser cv ++ ctree ++ putU32 h ++ [0] ++ [] ++ [0]) := by
    cases ct with
    | none => rfl
    | some l => cases h4; rfl
  have hsize : rawEnv.size ⟨⟨cv, ct⟩, ctree, h.toNat⟩ = some (BoxValue.ser cv ++ ctree ++ putU32 h ++ [0] ++ [] ++ [0]).length := by
    show (match BoxCand.ser rawSers { value := cv, tree := ctree, tokens := ct, regs := [], height := BitVec.ofNat 32 h.toNat } with
      | .ok bytes => some bytes.length
      | _ => none) = _
    rw [BitVec.ofNat_toNat, BitVec.setWidth_eq, hser]
  rw [hser]
  refine ⟨hsize, ?_⟩
  have l1 := (putU64_length (BitVec.ofNat 64 cv)).2
  have l2 := (putU64_length (h.setWidth 64)).2
  simp only [List.length_append, List.length_cons, List.length_nil, BoxValue.ser, putU32]
  omega

end Verif
