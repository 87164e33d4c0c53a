import Verif.Spec.Wire
import Verif.Proofs.Vlq
import Verif.Proofs.BigInt
import Verif.Proofs.VlqGet

/-! Lemmas on the numbers of `Verif.Wire`. -/

set_option linter.unusedSimpArgs false
set_option linter.unusedVariables false

namespace Verif.Wire

theorem putU64_vlq (n : Nat) : ∀ v : BitVec 64, v.toNat = n → putU64 v = vlq v.toNat := by
  induction n using Nat.strong_induction_on with
  | _ n ih =>
    intro v hn
    by_cases h : v.toNat < 128
    · rw [putU64_small v h, vlq, if_pos h, BitVec.ofNat_toNat]
    · rw [putU64_big v h, cont_byte, vlq, if_neg h]
      have hdiv : (v >>> 7).toNat = v.toNat / 128 := by
        simp [BitVec.toNat_ushiftRight, Nat.shiftRight_eq_div_pow]
      rw [ih (v >>> 7).toNat (by omega) (v >>> 7) rfl, hdiv]
      congr 1
      have hall : ∀ b : Byte, (b &&& 0x7F#8) ||| 0x80#8 = BitVec.ofNat 8 (128 + b.toNat % 128) := by decide
      rw [hall, BitVec.toNat_setWidth]
      congr 2
      omega

theorem putU64_eq (v : BitVec 64) : putU64 v = vlq v.toNat := putU64_vlq _ v rfl

theorem putU32_eq (v : BitVec 32) : putU32 v = vlq v.toNat := by
  rw [putU32, putU64_eq, BitVec.toNat_setWidth, Nat.mod_eq_of_lt (by have := v.isLt; omega)]

theorem putU16_eq (v : BitVec 16) : putU16 v = vlq v.toNat := by
  rw [putU16, putU64_eq, BitVec.toNat_setWidth, Nat.mod_eq_of_lt (by have := v.isLt; omega)]

theorem putI64_eq (v : BitVec 64) : putI64 v = vlq (zigzag v.toInt) := by
  rw [putI64, putU64_eq]
  congr 1
  have := zigzag64_toNat v
  unfold zigzag
  by_cases h : 0 ≤ v.toInt
  · rw [if_pos h] at this ⊢; omega
  · rw [if_neg h] at this ⊢; omega

theorem zz32_toNat (v : BitVec 32) : ((v <<< 1) ^^^ (v.sshiftRight 31)).toNat = zigzag v.toInt := by
  cases hm : v.msb with
  | false =>
    have hs : v.sshiftRight 31 = 0#32 := by
      apply BitVec.eq_of_getLsbD_eq
      intro i hi
      rw [BitVec.getLsbD_sshiftRight]
      by_cases h0 : i = 0
      · subst h0
        rw [BitVec.msb_eq_getLsbD_last] at hm
        have : v[31] = false := by simpa using hm
        simp [this]
      · simp [show ¬ (31 + i < 32) by omega, hm]
    have hlt : v.toNat < 2 ^ 31 := by
      have := BitVec.msb_eq_decide v
      rw [hm] at this; simp at this; omega
    have hi : v.toInt = v.toNat := BitVec.toInt_eq_toNat_of_msb hm
    rw [hs, hi, zigzag]
    simp only [BitVec.xor_zero, BitVec.toNat_shiftLeft, Nat.shiftLeft_eq]
    rw [if_pos (by omega)]
    omega
  | true =>
    have hs : v.sshiftRight 31 = BitVec.allOnes 32 := by
      apply BitVec.eq_of_getLsbD_eq
      intro i hi
      rw [BitVec.getLsbD_sshiftRight]
      by_cases h0 : i = 0
      · subst h0
        rw [BitVec.msb_eq_getLsbD_last] at hm
        have : v[31] = true := by simpa using hm
        simp [this]
      · rw [BitVec.getLsbD_allOnes]
        simp [show ¬ (31 + i < 32) by omega, hm, hi, show ¬ 32 ≤ i by omega]
    have hge : 2 ^ 31 ≤ v.toNat := by
      have := BitVec.msb_eq_decide v
      rw [hm] at this; simp at this; omega
    have hi : v.toInt = v.toNat - 2 ^ 32 := by
      rw [BitVec.toInt_eq_msb_cond, hm]; simp
    rw [hs, BitVec.xor_allOnes, hi, zigzag]
    have hlt := v.isLt
    simp only [BitVec.toNat_not, BitVec.toNat_shiftLeft, Nat.shiftLeft_eq]
    rw [if_neg (by omega)]
    omega

theorem putI32_eq (v : BitVec 32) : putI32 v = vlq (zigzag32 v.toInt) := by
  rw [putI32, putU64_eq]
  congr 1
  unfold zigzagEncodeI32 zigzag32
  rw [BitVec.toNat_signExtend, BitVec.toNat_setWidth, BitVec.msb_eq_decide, zz32_toNat]
  have h := ((v <<< 1) ^^^ (v.sshiftRight 31)).isLt
  rw [zz32_toNat] at h
  generalize zigzag v.toInt = z at *
  by_cases hz : z < 2 ^ 31
  · rw [if_pos hz]
    simp only [decide_eq_true_eq]
    rw [if_neg (by omega)]
    omega
  · rw [if_neg hz]
    simp only [decide_eq_true_eq]
    rw [if_pos (by omega)]
    omega

theorem putI16_eq (v : BitVec 16) : putI16 v = vlq (zigzag v.toInt) := by
  rw [putI16, putU32_eq, zz32_setWidth, zz32_toNat, BitVec.toInt_signExtend_of_le (by decide)]

theorem unsigned_go (b : Bytes) : ∀ a, b.foldl (fun a x => 256 * a + x.toNat) a = a * 256 ^ b.length + beNat b := by
  induction b with
  | nil => simp [beNat]
  | cons x b ih =>
    intro a
    simp only [List.foldl_cons, ih, beNat, List.length_cons, Nat.pow_succ]
    ring

theorem unsigned_eq (b : Bytes) : unsigned b = beNat b := by simp [unsigned, unsigned_go]

theorem twos_eq (b : Bytes) : twos b = signedOfBe b := by
  unfold twos
  rw [unsigned_eq]
  cases b with
  | nil => simp [signedOfBe, beNat]
  | cons x l =>
    have hl := beNat_lt l
    have h : (256 ^ (x :: l).length ≤ 2 * beNat (x :: l)) ↔ 128 ≤ x.toNat := by
      simp only [List.length_cons, beNat, Nat.pow_succ]
      generalize 256 ^ l.length = P at *
      constructor
      · intro h
        by_contra hc
        have : x.toNat * P ≤ 127 * P := Nat.mul_le_mul_right _ (by omega)
        omega
      · intro h
        have : 128 * P ≤ x.toNat * P := Nat.mul_le_mul_right _ h
        omega
    unfold signedOfBe
    by_cases hx : 128 ≤ x.toNat
    · simp only [hx, if_true, h.2 hx]
    · simp only [hx, if_false, mt h.1 hx]

theorem isTwos_toSignedBe (n : Int) : IsTwos n (toSignedBe n) := by
  refine ⟨?_, ?_, ?_⟩
  · intro h
    have := toSignedBe_length n
    rw [h] at this
    have := signedLen_pos n
    simp at *
    omega
  · rw [twos_eq, signedOfBe_toSignedBe]
  · intro c hc hn
    rw [twos_eq] at hn
    obtain ⟨h1, h2⟩ := signedOfBe_bounds c hc
    rw [hn] at h1 h2
    rw [toSignedBe_length]
    exact signedLen_le (by have := List.length_pos_iff.2 hc; omega) h1 h2

theorem isBits_putBits (n : Nat) : ∀ l : List Bool, l.length = n → IsBits l (putBits l) := by
  induction n using Nat.strong_induction_on with
  | _ n ih =>
    intro l hn
    cases l with
    | nil => simp [putBits, IsBits]
    | cons x t =>
      rw [putBits]
      obtain ⟨h1, h2⟩ := ih ((x :: t).drop 8).length (by simp at *; omega) _ rfl
      simp only [List.length_drop] at h1
      refine ⟨?_, ?_⟩
      · simp only [List.length_cons] at *
        omega
      · intro i hi
        by_cases h8 : i < 8
        · rw [show i / 8 = 0 by omega, show i % 8 = i by omega]
          simp only [List.getD_cons_zero]
          rw [packByte_getLsbD _ i h8, List.getD_eq_getElem?_getD, List.getElem?_take_of_lt h8, ← List.getD_eq_getElem?_getD]
        · obtain ⟨j, rfl⟩ : ∃ j, i = j + 8 := ⟨i - 8, by omega⟩
          rw [show (j + 8) / 8 = j / 8 + 1 by omega, show (j + 8) % 8 = j % 8 by omega, List.getD_cons_succ,
            h2 j (by simp only [List.length_cons] at hi; omega)]
          rw [List.getD_eq_getElem?_getD, List.getElem?_drop, ← List.getD_eq_getElem?_getD, Nat.add_comm]

theorem putBits_bits (l : List Bool) : IsBits l (putBits l) := isBits_putBits _ l rfl

end Verif.Wire
