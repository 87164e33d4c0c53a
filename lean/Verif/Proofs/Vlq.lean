import Verif.Model.Vlq
import Mathlib.Data.Nat.Bitwise

/-! Helper lemmas for the VLQ / ZigZag codec. -/

set_option linter.unusedSimpArgs false
set_option linter.unusedVariables false

namespace Verif

theorem land_not7f_eq_zero (v : BitVec 64) : (v &&& ~~~0x7F#64) = 0#64 ↔ v.toNat < 128 := by
  have key : (v &&& ~~~0x7F#64) = 0#64 ↔ v >>> 7 = 0#64 := by
    constructor
    · intro h
      ext i hi
      have := congrArg (fun x => x.getLsbD (7 + i)) h
      simp only [BitVec.getLsbD_and, BitVec.getLsbD_not, BitVec.getLsbD_zero] at this
      simp only [BitVec.getElem_ushiftRight, BitVec.getElem_zero]
      by_cases h2 : 7 + i < 64
      · have h3 : (0x7F#64).getLsbD (7 + i) = false := by
          have : ∀ j : Fin 57, (0x7F#64).getLsbD (7 + j.val) = false := by decide
          exact this ⟨i, by omega⟩
        rw [h3] at this
        simpa [h2] using this
      · exact BitVec.getLsbD_of_ge _ _ (by omega)
    · intro h
      ext i hi
      have := congrArg (fun x => x.getLsbD (i - 7)) h
      simp only [BitVec.getLsbD_ushiftRight, BitVec.getLsbD_zero] at this
      simp only [BitVec.getElem_and, BitVec.getElem_not, BitVec.getElem_zero]
      by_cases h2 : 7 ≤ i
      · rw [show 7 + (i - 7) = i by omega] at this
        rw [BitVec.getLsbD_eq_getElem hi] at this
        simp [this]
      · have : ∀ j : Fin 7, (0x7F#64).getLsbD j.val = true := by decide
        have h4 := this ⟨i, by omega⟩
        simp only [BitVec.getLsbD_eq_getElem hi] at h4
        simp [h4]
  rw [key, ← BitVec.toNat_inj]
  simp only [BitVec.toNat_ushiftRight, Nat.shiftRight_eq_div_pow, BitVec.toNat_ofNat]
  omega

theorem putU64_small (v : BitVec 64) (h : v.toNat < 128) : putU64 v = [v.setWidth 8] := by
  rw [putU64, dif_pos ((land_not7f_eq_zero v).2 h)]

theorem putU64_big (v : BitVec 64) (h : ¬ v.toNat < 128) :
    putU64 v = (((v.setWidth 32) &&& 0x7F#32) ||| 0x80#32).setWidth 8 :: putU64 (v >>> 7) := by
  rw [putU64, dif_neg (fun hh => h ((land_not7f_eq_zero v).1 hh))]

theorem cont_byte (v : BitVec 64) :
    ((((v.setWidth 32) &&& 0x7F#32) ||| 0x80#32).setWidth 8 : Byte) = (v.setWidth 8 &&& 0x7F#8) ||| 0x80#8 := by
  ext i hi
  simp only [BitVec.getElem_setWidth, BitVec.getLsbD_or, BitVec.getLsbD_and, BitVec.getLsbD_setWidth,
    BitVec.getElem_or, BitVec.getElem_and]
  have h1 : ∀ j : Fin 8, (0x7F#32).getLsbD j.val = (0x7F#8).getLsbD j.val := by decide
  have h2 : ∀ j : Fin 8, (0x80#32).getLsbD j.val = (0x80#8).getLsbD j.val := by decide
  have h1 := h1 ⟨i, hi⟩
  have h2 := h2 ⟨i, hi⟩
  simp only [BitVec.getLsbD_eq_getElem hi, BitVec.getLsbD_eq_getElem (show i < 32 by omega)] at h1 h2
  simp [h1, h2, show i < 32 by omega]

theorem cont_byte_high (b : Byte) : ((b &&& 0x7F#8) ||| 0x80#8) &&& 0x80#8 ≠ 0#8 := by
  revert b; decide

theorem cont_byte_low (b : Byte) : (((b &&& 0x7F#8) ||| 0x80#8) &&& 0x7F#8) = b &&& 0x7F#8 := by
  revert b; decide

theorem small_byte (v : BitVec 64) (h : v.toNat < 128) :
    (v.setWidth 8 : Byte) &&& 0x80#8 = 0#8 ∧ (((v.setWidth 8 : Byte) &&& 0x7F#8).setWidth 64) = v := by
  have hb : (v.setWidth 8 : Byte).toNat < 128 := by
    rw [BitVec.toNat_setWidth]; omega
  have hall : ∀ b : Byte, b.toNat < 128 → b &&& 0x80#8 = 0#8 ∧ b &&& 0x7F#8 = b := by decide
  obtain ⟨h1, h2⟩ := hall _ hb
  refine ⟨h1, ?_⟩
  rw [h2]
  apply BitVec.eq_of_toNat_eq
  simp only [BitVec.toNat_setWidth]
  omega

/-- low seven bits plus the shifted rest. -/
theorem split7 (v : BitVec 64) (shift : Nat) :
    ((((v.setWidth 8 : Byte) &&& 0x7F#8).setWidth 64) <<< shift) ||| ((v >>> 7) <<< (shift + 7)) = v <<< shift := by
  ext i hi
  simp only [BitVec.getElem_or, BitVec.getElem_shiftLeft]
  by_cases h1 : i < shift
  · simp [h1, show i < shift + 7 by omega]
  · simp only [h1, decide_false, Bool.not_false, Bool.true_and]
    have hlt : i - shift < 64 := by omega
    simp only [BitVec.getElem_setWidth, BitVec.getLsbD_and, BitVec.getLsbD_setWidth, BitVec.getElem_ushiftRight]
    by_cases h2 : i < shift + 7
    · have : ∀ j : Fin 7, (0x7F#8).getLsbD j.val = true := by decide
      have := this ⟨i - shift, by omega⟩
      simp only at this
      simp [h2, this, show i - shift < 8 by omega, BitVec.getLsbD_eq_getElem hlt]
    · have : (0x7F#8).getLsbD (i - shift) = false := by
        by_cases h8 : i - shift < 8
        · have h7 : i - shift = 7 := by omega
          rw [h7]; decide
        · exact BitVec.getLsbD_of_ge _ _ (by omega)
      simp [h2, this, show 7 + (i - (shift + 7)) = i - shift by omega, BitVec.getLsbD_eq_getElem hlt]

theorem getU64Loop_put (n : Nat) : ∀ (v : BitVec 64) (shift : Nat) (res : BitVec 64) (rest : Bytes),
    v.toNat = n → shift < 64 → v.toNat < 2 ^ (64 - shift) →
    getU64Loop shift res (putU64 v ++ rest) = some (res ||| (v <<< shift), rest) := by
  induction n using Nat.strong_induction_on with
  | _ n ih =>
    intro v shift res rest hn hs hv
    by_cases hsmall : v.toNat < 128
    · rw [putU64_small v hsmall]
      obtain ⟨h1, h2⟩ := small_byte v hsmall
      simp only [List.cons_append, List.nil_append, getU64Loop, hs, if_true, h1, h2]
    · rw [putU64_big v hsmall, cont_byte]
      have hdiv : (v >>> 7).toNat = v.toNat / 128 := by
        simp [BitVec.toNat_ushiftRight, Nat.shiftRight_eq_div_pow]
      have hs7 : shift + 7 < 64 := by
        by_contra hc
        have : 2 ^ (64 - shift) ≤ 2 ^ 7 := Nat.pow_le_pow_right (by decide) (by omega)
        omega
      have hpow : 2 ^ (64 - shift) = 2 ^ (64 - (shift + 7)) * 128 := by
        rw [show 64 - shift = (64 - (shift + 7)) + 7 by omega, Nat.pow_add]
      have hlt : (v >>> 7).toNat < 2 ^ (64 - (shift + 7)) := by
        rw [hdiv]; exact Nat.div_lt_of_lt_mul (by rw [Nat.mul_comm]; omega)
      have := ih (v >>> 7).toNat (by omega) (v >>> 7) (shift + 7)
        (res ||| ((((v.setWidth 8 : Byte) &&& 0x7F#8).setWidth 64) <<< shift)) rest rfl hs7 hlt
      simp only [List.cons_append, getU64Loop, hs, if_true, cont_byte_high, if_false, cont_byte_low, this]
      rw [BitVec.or_assoc, split7]

theorem getU64_put (v : BitVec 64) (rest : Bytes) : getU64 (putU64 v ++ rest) = some (v, rest) := by
  have := getU64Loop_put v.toNat v 0 0#64 rest rfl (by decide) (by simpa using v.isLt)
  simpa [getU64] using this

theorem putU64_length_aux (n : Nat) : ∀ (k : Nat) (v : BitVec 64), v.toNat = n → v.toNat < 128 ^ (k + 1) →
    1 ≤ (putU64 v).length ∧ (putU64 v).length ≤ k + 1 := by
  induction n using Nat.strong_induction_on with
  | _ n ih =>
    intro k v hn hk
    by_cases hsmall : v.toNat < 128
    · rw [putU64_small v hsmall]; simp
    · have hdiv : (v >>> 7).toNat = v.toNat / 128 := by
        simp [BitVec.toNat_ushiftRight, Nat.shiftRight_eq_div_pow]
      rw [putU64_big v hsmall]
      cases k with
      | zero => simp at hk; omega
      | succ k =>
        have := ih _ (by omega) k (v >>> 7) rfl (by
          rw [hdiv]; exact Nat.div_lt_of_lt_mul (by rw [← Nat.pow_succ']; exact hk))
        simp only [List.length_cons]
        omega

theorem putU64_length (v : BitVec 64) : 1 ≤ (putU64 v).length ∧ (putU64 v).length ≤ 10 :=
  putU64_length_aux v.toNat 9 v rfl (Nat.lt_of_lt_of_le v.isLt (by decide))

/-- Tight length: the encoding takes at most `k + 1` bytes iff the value is below `128^(k+1)`. -/
theorem putU64_length_le_iff (n : Nat) : ∀ (k : Nat) (v : BitVec 64), v.toNat = n →
    ((putU64 v).length ≤ k + 1 ↔ v.toNat < 128 ^ (k + 1)) := by
  induction n using Nat.strong_induction_on with
  | _ n ih =>
    intro k v hn
    by_cases hsmall : v.toNat < 128
    · rw [putU64_small v hsmall]
      have h128 : 128 ^ 1 ≤ 128 ^ (k + 1) := Nat.pow_le_pow_right (by decide) (by omega)
      simp only [List.length_cons, List.length_nil]
      constructor
      · intro _; omega
      · intro _; omega
    · have hdiv : (v >>> 7).toNat = v.toNat / 128 := by
        simp [BitVec.toNat_ushiftRight, Nat.shiftRight_eq_div_pow]
      rw [putU64_big v hsmall]
      cases k with
      | zero =>
        have := (putU64_length (v >>> 7)).1
        simp only [List.length_cons]
        constructor
        · intro h; omega
        · intro h; simp at h; omega
      | succ k =>
        have := ih _ (by omega) k (v >>> 7) rfl
        simp only [List.length_cons, Nat.add_le_add_iff_right]
        rw [this, hdiv, Nat.div_lt_iff_lt_mul (by decide), ← Nat.pow_succ]

theorem getU32_put (v : BitVec 32) (rest : Bytes) : getU32 (putU32 v ++ rest) = some (v, rest) := by
  unfold getU32 putU32
  rw [Parser.bind_some (getU64_put _ rest)]
  have h : (v.setWidth 64).toNat = v.toNat := by
    rw [BitVec.toNat_setWidth]; have := v.isLt; omega
  rw [if_pos (by rw [h]; exact v.isLt)]
  simp

theorem getU16_put (v : BitVec 16) (rest : Bytes) : getU16 (putU16 v ++ rest) = some (v, rest) := by
  unfold getU16 putU16
  rw [Parser.bind_some (getU64_put _ rest)]
  have h : (v.setWidth 64).toNat = v.toNat := by
    rw [BitVec.toNat_setWidth]; have := v.isLt; omega
  rw [if_pos (by rw [h]; exact v.isLt)]
  simp

/-! ## ZigZag -/

theorem zz32_getLsbD (v : BitVec 32) (i : Nat) (hi : i < 32) :
    ((v <<< 1) ^^^ (v.sshiftRight 31)).getLsbD i = if i = 0 then v.msb else (v.getLsbD (i - 1) ^^ v.msb) := by
  simp only [BitVec.getLsbD_xor, BitVec.getLsbD_shiftLeft, BitVec.getLsbD_sshiftRight]
  by_cases h0 : i = 0
  · subst h0; simp [BitVec.msb_eq_getLsbD_last]
  · simp [h0, hi, show ¬ i < 1 by omega, show ¬ (31 + i < 32) by omega, show ¬ 32 ≤ i by omega]

theorem zz64_getLsbD (v : BitVec 64) (i : Nat) (hi : i < 64) :
    ((v <<< 1) ^^^ (v.sshiftRight 63)).getLsbD i = if i = 0 then v.msb else (v.getLsbD (i - 1) ^^ v.msb) := by
  simp only [BitVec.getLsbD_xor, BitVec.getLsbD_shiftLeft, BitVec.getLsbD_sshiftRight]
  by_cases h0 : i = 0
  · subst h0; simp [BitVec.msb_eq_getLsbD_last]
  · simp [h0, hi, show ¬ i < 1 by omega, show ¬ (63 + i < 64) by omega, show ¬ 64 ≤ i by omega]

theorem neg_and_one {w : Nat} (hw : 0 < w) (x : BitVec w) (i : Nat) (hi : i < w) :
    (-(x &&& 1#w)).getLsbD i = x.getLsbD 0 := by
  have h1 : x &&& 1#w = if x.getLsbD 0 then 1#w else 0#w := by
    ext j hj
    by_cases hb : x.getLsbD 0
    · simp only [BitVec.getElem_and, hb, if_true]
      by_cases hj0 : j = 0
      · subst hj0
        rw [BitVec.getLsbD_eq_getElem hj] at hb
        simp [hb]
      · have : (1#w)[j] = false := by simp [BitVec.getElem_one, hj0]
        simp [this]
    · simp only [BitVec.getElem_and, hb]
      by_cases hj0 : j = 0
      · subst hj0
        rw [BitVec.getLsbD_eq_getElem hj] at hb
        simp [hb]
      · have : (1#w)[j] = false := by simp [BitVec.getElem_one, hj0]
        simp [this]
  rw [h1]
  by_cases hb : x.getLsbD 0
  · simp only [hb, if_true]
    rw [BitVec.neg_one_eq_allOnes]
    simp [hi]
  · simp [hb]

theorem zz32_setWidth (v : BitVec 32) :
    (zigzagEncodeI32 v).setWidth 32 = (v <<< 1) ^^^ (v.sshiftRight 31) := by
  unfold zigzagEncodeI32
  ext i hi
  simp only [BitVec.getElem_setWidth, BitVec.getLsbD_signExtend]
  simp [hi, show i < 64 by omega]

theorem zz32_core (v : BitVec 32) (y : BitVec 32) (hy : y = (v <<< 1) ^^^ (v.sshiftRight 31)) :
    (y >>> 1) ^^^ (-(y &&& 1#32)) = v := by
  apply BitVec.eq_of_getLsbD_eq
  intro i hi
  rw [BitVec.getLsbD_xor, neg_and_one (by decide) y i hi, BitVec.getLsbD_ushiftRight, hy,
    zz32_getLsbD v 0 (by decide)]
  by_cases h : 1 + i < 32
  · rw [zz32_getLsbD v (1 + i) h]
    simp [show 1 + i ≠ 0 by omega]
  · have h31 : i = 31 := by omega
    subst h31
    rw [BitVec.getLsbD_of_ge _ _ (by omega)]
    simp [BitVec.msb_eq_getLsbD_last]

theorem zigzag32_dec_enc (v : BitVec 32) : zigzagDecodeU32 (zigzagEncodeI32 v) = v := by
  unfold zigzagDecodeU32
  rw [zz32_setWidth]
  exact zz32_core v _ rfl

theorem zigzag64_dec_enc (v : BitVec 64) : zigzagDecodeU64 (zigzagEncodeI64 v) = v := by
  unfold zigzagDecodeU64 zigzagEncodeI64
  apply BitVec.eq_of_getLsbD_eq
  intro i hi
  rw [BitVec.getLsbD_xor, neg_and_one (by decide) _ i hi, BitVec.getLsbD_ushiftRight,
    zz64_getLsbD v 0 (by decide)]
  by_cases h : 1 + i < 64
  · rw [zz64_getLsbD v (1 + i) h]
    simp [show 1 + i ≠ 0 by omega]
  · have h63 : i = 63 := by omega
    subst h63
    rw [BitVec.getLsbD_of_ge _ _ (by omega)]
    simp [BitVec.msb_eq_getLsbD_last]

theorem zigzag64_enc_dec (u : BitVec 64) : zigzagEncodeI64 (zigzagDecodeU64 u) = u := by
  unfold zigzagEncodeI64
  apply BitVec.eq_of_getLsbD_eq
  intro i hi
  have hd : ∀ j, j < 64 → (zigzagDecodeU64 u).getLsbD j = (u.getLsbD (1 + j) ^^ u.getLsbD 0) := by
    intro j hj
    unfold zigzagDecodeU64
    rw [BitVec.getLsbD_xor, neg_and_one (by decide) u j hj, BitVec.getLsbD_ushiftRight]
  have hm : (zigzagDecodeU64 u).msb = u.getLsbD 0 := by
    rw [BitVec.msb_eq_getLsbD_last, hd 63 (by decide), BitVec.getLsbD_of_ge _ _ (by omega)]
    simp
  rw [zz64_getLsbD _ i hi, hm]
  by_cases h : i = 0
  · subst h; simp
  · simp only [h, if_false]
    rw [hd (i - 1) (by omega), show 1 + (i - 1) = i by omega]
    simp

/-- Arithmetic meaning of ZigZag on 64 bits. -/
theorem zigzag64_toNat (v : BitVec 64) :
    ((zigzagEncodeI64 v).toNat : Int) = if 0 ≤ v.toInt then 2 * v.toInt else -2 * v.toInt - 1 := by
  unfold zigzagEncodeI64
  cases hm : v.msb with
  | false =>
    have hs : v.sshiftRight 63 = 0#64 := by
      apply BitVec.eq_of_getLsbD_eq
      intro i hi
      rw [BitVec.getLsbD_sshiftRight]
      by_cases h0 : i = 0
      · subst h0
        rw [BitVec.msb_eq_getLsbD_last] at hm
        have : v[63] = false := by simpa using hm
        simp [this]
      · simp [show ¬ (63 + i < 64) by omega, hm]
    have hlt : v.toNat < 2 ^ 63 := by
      have := BitVec.msb_eq_decide v
      rw [hm] at this; simp at this; omega
    have hi : v.toInt = v.toNat := BitVec.toInt_eq_toNat_of_msb hm
    rw [hs, hi]
    simp only [BitVec.xor_zero, BitVec.toNat_shiftLeft, Nat.shiftLeft_eq]
    rw [if_pos (by omega)]
    omega
  | true =>
    have hs : v.sshiftRight 63 = BitVec.allOnes 64 := by
      apply BitVec.eq_of_getLsbD_eq
      intro i hi
      rw [BitVec.getLsbD_sshiftRight]
      by_cases h0 : i = 0
      · subst h0
        rw [BitVec.msb_eq_getLsbD_last] at hm
        have : v[63] = true := by simpa using hm
        simp [this]
      · rw [BitVec.getLsbD_allOnes]
        simp [show ¬ (63 + i < 64) by omega, hm, hi, show ¬ 64 ≤ i by omega]
    have hge : 2 ^ 63 ≤ v.toNat := by
      have := BitVec.msb_eq_decide v
      rw [hm] at this; simp at this; omega
    have hi : v.toInt = v.toNat - 2 ^ 64 := by
      rw [BitVec.toInt_eq_msb_cond, hm]; simp
    rw [hs, BitVec.xor_allOnes, hi]
    have hlt := v.isLt
    simp only [BitVec.toNat_not, BitVec.toNat_shiftLeft, Nat.shiftLeft_eq]
    rw [if_neg (by omega)]
    omega

theorem getI64_put (v : BitVec 64) (rest : Bytes) : getI64 (putI64 v ++ rest) = some (v, rest) := by
  unfold getI64 putI64
  rw [Parser.bind_some (getU64_put _ rest)]
  simp [zigzag64_dec_enc]

theorem getI32_put (v : BitVec 32) (rest : Bytes) : getI32 (putI32 v ++ rest) = some (v, rest) := by
  unfold getI32 putI32
  rw [Parser.bind_some (getU64_put _ rest)]
  simp [zigzag32_dec_enc]

theorem getI16_put (v : BitVec 16) (rest : Bytes) : getI16 (putI16 v ++ rest) = some (v, rest) := by
  unfold getI16 putI16 putU32
  rw [Parser.bind_some (getU64_put _ rest)]
  have hdec : zigzagDecodeU32 (((zigzagEncodeI32 (v.signExtend 32)).setWidth 32).setWidth 64) = v.signExtend 32 := by
    unfold zigzagDecodeU32
    rw [zz32_setWidth]
    rw [BitVec.setWidth_setWidth_of_le _ (by decide), BitVec.setWidth_eq]
    exact zz32_core _ _ rfl
  simp only [hdec]
  have hint : (v.signExtend 32).toInt = v.toInt := BitVec.toInt_signExtend_of_le (by decide)
  have h1 := BitVec.le_toInt v
  have h2 := BitVec.toInt_lt (x := v)
  rw [if_pos (by rw [hint]; constructor <;> simpa using by first | exact h1 | exact h2)]
  simp only [Parser.pure_run, Option.some.injEq, Prod.mk.injEq, and_true]
  ext i hi
  simp only [BitVec.getElem_setWidth, BitVec.getLsbD_signExtend]
  simp [hi, show i < 32 by omega]

end Verif
