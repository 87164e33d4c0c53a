import Verif.Proofs.Vlq
import Verif.Spec.Vlq
import Mathlib.Tactic.Ring

/-! Helper lemmas: what `get_u64` does on arbitrary input; list-like codecs. -/

set_option linter.unusedSimpArgs false
set_option linter.unusedVariables false

namespace Verif
open Spec

theorem and80_zero (b : Byte) : (b &&& 0x80#8 = 0#8) ↔ more b = false := by
  unfold more; revert b; decide

theorem and7f_toNat (b : Byte) : (b &&& 0x7F#8).toNat = b.toNat % 128 := by
  revert b; decide

theorem or_shift_toNat (res : BitVec 64) (x : BitVec 64) (shift : Nat) (hs : shift < 64)
    (hr : res.toNat < 2 ^ shift) :
    (res ||| (x <<< shift)).toNat = res.toNat + (x.toNat % 2 ^ (64 - shift)) * 2 ^ shift := by
  have h1 : (x <<< shift).toNat = (x.toNat % 2 ^ (64 - shift)) <<< shift := by
    rw [BitVec.toNat_shiftLeft, Nat.shiftLeft_eq, Nat.shiftLeft_eq]
    have : 2 ^ 64 = 2 ^ (64 - shift) * 2 ^ shift := by rw [← Nat.pow_add]; congr 1; omega
    rw [this, Nat.mul_mod_mul_right]
  rw [BitVec.toNat_or, h1, Nat.or_comm, ← Nat.shiftLeft_add_eq_or_of_lt hr, Nat.shiftLeft_eq]
  omega

theorem getU64Loop_some : ∀ (s : Bytes) (k : Nat) (res v : BitVec 64) (rest : Bytes),
    (res.toNat < 2 ^ (7 * k) ∨ 64 ≤ 7 * k) →
    getU64Loop (7 * k) res s = some (v, rest) →
    ∃ c, s = c ++ rest ∧ vlqGroup c = true ∧ k + c.length ≤ 10 ∧
      v.toNat = (res.toNat + 2 ^ (7 * k) * vlqValue c) % 2 ^ 64 := by
  intro s
  induction s with
  | nil => intro k res v rest _ h; simp [getU64Loop] at h
  | cons b s ih =>
    intro k res v rest hr h
    rw [getU64Loop] at h
    by_cases hs : 7 * k < 64
    · rw [if_pos hs] at h
      have hr' : res.toNat < 2 ^ (7 * k) := by
        rcases hr with hr | hr
        · exact hr
        · omega
      have hval := or_shift_toNat res ((b &&& 0x7F#8).setWidth 64) (7 * k) hs hr'
      have hx : ((b &&& 0x7F#8).setWidth 64 : BitVec 64).toNat = b.toNat % 128 := by
        rw [BitVec.toNat_setWidth, and7f_toNat]; omega
      rw [hx] at hval
      have hmod : ∀ y : Nat, (res.toNat + (y % 2 ^ (64 - 7 * k)) * 2 ^ (7 * k)) % 2 ^ 64
          = (res.toNat + y * 2 ^ (7 * k)) % 2 ^ 64 := by
        intro y
        have h64 : 2 ^ 64 = 2 ^ (64 - 7 * k) * 2 ^ (7 * k) := by rw [← Nat.pow_add]; congr 1; omega
        rw [Nat.add_mod, Nat.add_mod res.toNat (y * 2 ^ (7 * k))]
        congr 2
        rw [h64, Nat.mul_mod_mul_right, Nat.mul_mod_mul_right, Nat.mod_mod]
      simp only at h
      by_cases hm : b &&& 0x80#8 = 0#8
      · rw [if_pos hm] at h
        simp only [Option.some.injEq, Prod.mk.injEq] at h
        obtain ⟨h1, h2⟩ := h
        subst h1 h2
        refine ⟨[b], rfl, ?_, ?_, ?_⟩
        · simp [vlqGroup, (and80_zero b).1 hm]
        · simp; omega
        · have hlt : (res ||| (((b &&& 0x7F#8).setWidth 64) <<< (7 * k)) : BitVec 64).toNat < 2 ^ 64 := BitVec.isLt _
          rw [← Nat.mod_eq_of_lt hlt, hval, hmod]
          simp only [vlqValue]
          congr 2
          rw [Nat.mul_zero, Nat.add_zero, Nat.mul_comm]
      · rw [if_neg hm] at h
        have hk : 7 * k + 7 = 7 * (k + 1) := by omega
        rw [hk] at h
        obtain ⟨c, hc1, hc2, hc3, hc4⟩ := ih (k + 1) _ v rest (by
          by_cases h8 : 64 ≤ 7 * (k + 1)
          · right; exact h8
          · left
            rw [hval]
            have hm128 : b.toNat % 128 ≤ 127 := by omega
            have h1 : (b.toNat % 128) % 2 ^ (64 - 7 * k) ≤ 127 := le_trans (Nat.mod_le _ _) hm128
            have h2 : 2 ^ (7 * (k + 1)) = 128 * 2 ^ (7 * k) := by
              rw [Nat.mul_add, Nat.pow_add]; omega
            rw [h2]
            calc res.toNat + (b.toNat % 128) % 2 ^ (64 - 7 * k) * 2 ^ (7 * k)
                < 2 ^ (7 * k) + 127 * 2 ^ (7 * k) := by
                  have := Nat.mul_le_mul_right (2 ^ (7 * k)) h1
                  omega
              _ = 128 * 2 ^ (7 * k) := by omega) h
        refine ⟨b :: c, by rw [hc1]; rfl, ?_, by simp; omega, ?_⟩
        · cases c with
          | nil => simp [vlqGroup] at hc2
          | cons d c =>
            rw [vlqGroup]
            · have : more b = true := by
                by_contra hcon
                exact hm ((and80_zero b).2 (by simpa using hcon))
              simp [this, hc2]
            · simp
        · rw [hc4, hval]
          have h2 : 2 ^ (7 * (k + 1)) = 128 * 2 ^ (7 * k) := by
            rw [Nat.mul_add, Nat.pow_add]; omega
          rw [h2]
          simp only [vlqValue]
          have := hmod (b.toNat % 128)
          rw [Nat.add_mod, this, ← Nat.add_mod]
          congr 1
          ring
    · rw [if_neg hs] at h; simp at h

theorem getU64Loop_none : ∀ (s : Bytes) (k : Nat) (res : BitVec 64), k ≤ 10 →
    (getU64Loop (7 * k) res s = none ↔ ∀ b ∈ s.take (10 - k), more b = true) := by
  intro s
  induction s with
  | nil => intro k res _; simp [getU64Loop]
  | cons b s ih =>
    intro k res hk
    rw [getU64Loop]
    by_cases hs : 7 * k < 64
    · rw [if_pos hs]
      simp only
      have hk9 : k ≤ 9 := by omega
      rw [show 10 - k = (9 - k) + 1 by omega, List.take_succ_cons]
      by_cases hm : b &&& 0x80#8 = 0#8
      · rw [if_pos hm]
        simp [(and80_zero b).1 hm]
      · rw [if_neg hm, show 7 * k + 7 = 7 * (k + 1) by omega, ih (k + 1) _ (by omega)]
        have : more b = true := by
          by_contra hcon
          exact hm ((and80_zero b).2 (by simpa using hcon))
        simp [this, show 10 - (k + 1) = 9 - k by omega]
    · rw [if_neg hs]
      have : k = 10 := by omega
      subst this
      simp

theorem vlqValue_lt (c : Bytes) : vlqValue c < 128 ^ c.length := by
  induction c with
  | nil => simp [vlqValue]
  | cons b c ih =>
    simp only [vlqValue, List.length_cons, Nat.pow_succ]
    omega

theorem putU64_value (n : Nat) : ∀ v : BitVec 64, v.toNat = n →
    vlqValue (putU64 v) = v.toNat ∧ vlqGroup (putU64 v) = true := by
  induction n using Nat.strong_induction_on with
  | _ n ih =>
    intro v hn
    by_cases hsmall : v.toNat < 128
    · rw [putU64_small v hsmall]
      have : (v.setWidth 8 : Byte).toNat = v.toNat := by
        rw [BitVec.toNat_setWidth]; omega
      simp [vlqValue, vlqGroup, more, this]
      omega
    · have hdiv : (v >>> 7).toNat = v.toNat / 128 := by
        simp [BitVec.toNat_ushiftRight, Nat.shiftRight_eq_div_pow]
      rw [putU64_big v hsmall, cont_byte]
      obtain ⟨h1, h2⟩ := ih _ (by omega) (v >>> 7) rfl
      have hb : ∀ b : Byte, ((b &&& 0x7F#8) ||| 0x80#8).toNat % 128 = b.toNat % 128 ∧
          more ((b &&& 0x7F#8) ||| 0x80#8) = true := by unfold more; decide
      obtain ⟨hb1, hb2⟩ := hb (v.setWidth 8)
      constructor
      · simp only [vlqValue, hb1, h1, hdiv]
        rw [BitVec.toNat_setWidth]
        omega
      · cases hp : putU64 (v >>> 7) with
        | nil => rw [hp] at h2; simp [vlqGroup] at h2
        | cons d c =>
          rw [hp] at h2
          rw [vlqGroup]
          · simp [hb2, h2]
          · simp

/-! ## bits -/

theorem packByte_getLsbD (bs : List Bool) (i : Nat) (hi : i < 8) :
    (packByte bs).getLsbD i = bs.getD i false := by
  have key : ∀ (a0 a1 a2 a3 a4 a5 a6 a7 : Bool) (i : Fin 8),
      (BitVec.ofNat 8 ([a0, a1, a2, a3, a4, a5, a6, a7].zipIdx.foldl
        (fun acc p => acc + if p.1 then 2 ^ p.2 else 0) 0)).getLsbD i.val
        = [a0, a1, a2, a3, a4, a5, a6, a7].getD i.val false := by
    decide +kernel
  have := key (bs.getD 0 false) (bs.getD 1 false) (bs.getD 2 false) (bs.getD 3 false) (bs.getD 4 false)
    (bs.getD 5 false) (bs.getD 6 false) (bs.getD 7 false) ⟨i, hi⟩
  have h2 : [bs.getD 0 false, bs.getD 1 false, bs.getD 2 false, bs.getD 3 false, bs.getD 4 false,
    bs.getD 5 false, bs.getD 6 false, bs.getD 7 false].getD i false = bs.getD i false := by
    have : i = 0 ∨ i = 1 ∨ i = 2 ∨ i = 3 ∨ i = 4 ∨ i = 5 ∨ i = 6 ∨ i = 7 := by omega
    rcases this with h | h | h | h | h | h | h | h <;> subst h <;> rfl
  rw [← h2, ← this]
  rfl

theorem unpack_pack (bs : List Bool) (h : bs.length ≤ 8) :
    (unpackByte (packByte bs)).take bs.length = bs := by
  apply List.ext_getElem
  · simp [unpackByte]; omega
  · intro i h1 h2
    simp only [unpackByte, List.getElem_take, List.getElem_map, List.getElem_range]
    rw [packByte_getLsbD bs i (by omega)]
    simp [List.getD, h2]

theorem putBits_length (n : Nat) : ∀ bs : List Bool, bs.length = n → (putBits bs).length = (bs.length + 7) / 8 := by
  induction n using Nat.strong_induction_on with
  | _ n ih =>
    intro bs hn
    cases bs with
    | nil => simp [putBits]
    | cons b bs =>
      rw [putBits, List.length_cons, ih _ (by subst hn; simp; omega) _ rfl]
      simp
      omega

theorem putBits_unpack (n : Nat) : ∀ bs : List Bool, bs.length = n →
    ((putBits bs).flatMap unpackByte).take bs.length = bs := by
  induction n using Nat.strong_induction_on with
  | _ n ih =>
    intro bs hn
    cases bs with
    | nil => simp
    | cons b bs =>
      rw [putBits, List.flatMap_cons]
      have h8 : (unpackByte (packByte ((b :: bs).take 8))).length = 8 := by simp [unpackByte]
      by_cases hlen : (b :: bs).length ≤ 8
      · have ht : (b :: bs).take 8 = b :: bs := List.take_of_length_le hlen
        rw [List.take_append_of_le_length (by omega), ht]
        exact unpack_pack _ hlen
      · have hlen' : 8 < (b :: bs).length := by omega
        have ihd := ih ((b :: bs).drop 8).length (by rw [← hn, List.length_drop]; omega) _ rfl
        have hsplit : (b :: bs).length = 8 + ((b :: bs).drop 8).length := by rw [List.length_drop]; omega
        rw [hsplit, List.take_append, h8, List.take_of_length_le (by rw [h8]; omega), Nat.add_sub_cancel_left, ihd]
        have := unpack_pack ((b :: bs).take 8) (by rw [List.length_take]; omega)
        rw [List.length_take, Nat.min_eq_left (by omega), List.take_of_length_le (by rw [h8])] at this
        rw [this, List.take_append_drop]

theorem getBits_put (bs : List Bool) (rest : Bytes) :
    getBits bs.length (putBits bs ++ rest) = some (bs, rest) := by
  unfold getBits
  rw [Parser.bind_some (readExact_append' (putBits bs) rest (putBits_length _ bs rfl))]
  simp [putBits_unpack _ bs rfl]

theorem getVec_put {α : Type} {P : α → Prop} {put : α → Bytes} {get : Parser α} (h : RoundTrips P put get)
    (l : List α) (hl : ∀ a ∈ l, P a) (hlen : l.length < 2 ^ 32) (rest : Bytes) :
    getVec get (putVec put l ++ rest) = some (l, rest) := by
  unfold getVec putVec
  rw [List.append_assoc, Parser.bind_some (getU32_put _ _)]
  rw [BitVec.toNat_ofNat, Nat.mod_eq_of_lt hlen]
  exact replicateP_roundTrips h l hl rest

theorem getOption_put {α : Type} {P : α → Prop} {put : α → Bytes} {get : Parser α} (h : RoundTrips P put get)
    (o : Option α) (ho : ∀ a ∈ o, P a) (rest : Bytes) :
    getOption get (putOption put o ++ rest) = some (o, rest) := by
  cases o with
  | none => simp [putOption, putU8, getOption]
  | some a => simp [putOption, putU8, getOption, h a (ho a rfl)]

theorem getOptBox_put {α : Type} {P : α → Prop} {put : α → Bytes} {get : Parser α} (h : RoundTrips P put get)
    (o : Option α) (ho : ∀ a ∈ o, P a) (rest : Bytes) :
    getOptBox get (putOptBox put o ++ rest) = some (o, rest) := by
  cases o with
  | none =>
    simp only [putOptBox, putU8, getOptBox, List.cons_append, List.nil_append]
    rw [Parser.bind_some (getU8_cons _ _)]
    simp
  | some a =>
    simp only [putOptBox, putU8, getOptBox, List.cons_append, List.nil_append]
    rw [Parser.bind_some (getU8_cons _ _)]
    rw [if_pos (by decide), Parser.bind_some (h a (ho a rfl) rest)]
    rfl

theorem getShortString_put (valid : Bytes → Bool) (s : Bytes) (hv : valid s = true) (hlen : s.length ≤ 255)
    (rest : Bytes) :
    ∃ bs, putShortString s = some bs ∧ getShortString valid (bs ++ rest) = some (s, rest) := by
  refine ⟨putU8 (BitVec.ofNat 8 s.length) ++ s, by simp [putShortString]; omega, ?_⟩
  simp only [putU8, getShortString, List.cons_append, List.nil_append]
  rw [Parser.bind_some (getU8_cons _ _)]
  rw [Parser.bind_some (readExact_append' s rest (by simp; omega))]
  simp [hv]

theorem getU32Be_put (v : BitVec 32) (rest : Bytes) : getU32Be (putU32Be v ++ rest) = some (v, rest) := by
  simp only [putU32Be, u32ToBe, getU32Be, List.cons_append, List.nil_append]
  repeat rw [Parser.bind_some (getU8_cons _ _)]
  simp only [Parser.pure_run, Option.some.injEq, Prod.mk.injEq, and_true, u32OfBe]
  apply BitVec.eq_of_toNat_eq
  have hv := v.isLt
  apply Nat.eq_of_testBit_eq
  intro i
  simp only [BitVec.toNat_or, BitVec.toNat_shiftLeft, BitVec.toNat_setWidth, BitVec.toNat_ushiftRight,
    Nat.testBit_or, Nat.testBit_mod_two_pow, Nat.testBit_shiftLeft, Nat.testBit_shiftRight]
  by_cases h32 : i < 32
  · rcases Nat.lt_or_ge i 8 with h | h
    · simp [h, h32, show ¬ i ≥ 8 by omega, show ¬ i ≥ 16 by omega, show ¬ i ≥ 24 by omega]
    · rcases Nat.lt_or_ge i 16 with h' | h'
      · simp [h, h32, show ¬ i < 8 by omega, show ¬ i ≥ 16 by omega, show ¬ i ≥ 24 by omega,
          show i - 8 < 8 by omega, show i - 8 < 32 by omega, show 8 + (i - 8) = i by omega]
      · rcases Nat.lt_or_ge i 24 with h'' | h''
        · simp [h, h', h32, show ¬ i < 8 by omega, show ¬ i - 8 < 8 by omega, show ¬ i ≥ 24 by omega,
            show i - 16 < 8 by omega, show i - 16 < 32 by omega, show 16 + (i - 16) = i by omega]
        · simp [h, h', h'', h32, show ¬ i < 8 by omega, show ¬ i - 8 < 8 by omega, show ¬ i - 16 < 8 by omega,
            show i - 24 < 8 by omega, show i - 24 < 32 by omega, show 24 + (i - 24) = i by omega]
  · have : v.toNat.testBit i = false := Nat.testBit_lt_two_pow (lt_of_lt_of_le hv (Nat.pow_le_pow_right (by decide) (by omega)))
    simp [h32, this]

end Verif
