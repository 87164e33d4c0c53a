import Verif.Proofs.Arith
import Verif.Proofs.BigInt
import Mathlib.Data.List.Induction

set_option linter.unusedSimpArgs false
set_option linter.unusedVariables false

/-! # Longs and byte arrays -/

namespace Verif
open Spec

theorem appendBytes_snoc (a : Int) (l : Bytes) (b : Byte) : appendBytes a (l ++ [b]) = appendBytes a l * 256 + b.toNat := by
  simp [appendBytes]

theorem appendBytes_eq (a : Int) (l : Bytes) : appendBytes a l = a * 256 ^ l.length + beNat l := by
  induction l generalizing a with
  | nil => simp [appendBytes, beNat]
  | cons b l ih =>
    rw [show appendBytes a (b :: l) = appendBytes (a * 256 + b.toNat) l from rfl, ih]
    simp only [List.length_cons, beNat, pow_succ]
    push_cast
    ring

theorem twos_eq (l : Bytes) : twos l = signedOfBe l := by
  cases l with
  | nil => rfl
  | cons b l =>
    rw [show twos (b :: l) = appendBytes b.toInt l from rfl, appendBytes_eq]
    have hm : b.msb = decide (128 ≤ b.toNat) := BitVec.msb_eq_decide b
    rw [BitVec.toInt_eq_msb_cond]
    show _ = (if 128 ≤ b.toNat then (beNat (b :: l) : Int) - (256 ^ (b :: l).length : Nat) else beNat (b :: l))
    by_cases h : 128 ≤ b.toNat
    · rw [hm, if_pos (by simpa using h), if_pos h]
      simp only [beNat, List.length_cons, pow_succ]
      push_cast
      ring
    · rw [hm, if_neg (by simpa using h), if_neg h]
      simp only [beNat]
      push_cast
      ring

/-! ## Long to bytes -/

theorem beNat_snoc (l : Bytes) (b : Byte) : beNat (l ++ [b]) = beNat l * 256 + b.toNat := by
  induction l with
  | nil => simp [beNat]
  | cons c l ih =>
    simp only [List.cons_append, beNat, ih, List.length_append, List.length_singleton, pow_succ]
    ring

theorem longBytesLoop_length (k : Nat) (v : BitVec 64) : (longBytesLoop k v).length = k := by
  induction k generalizing v with
  | zero => rfl
  | succ k ih => simp [longBytesLoop, ih]

theorem beNat_longBytesLoop (k : Nat) (v : BitVec 64) : (beNat (longBytesLoop k v) : Int) = v.toInt % 256 ^ k := by
  induction k generalizing v with
  | zero => simp [longBytesLoop, beNat, Int.emod_one]
  | succ k ih =>
    rw [longBytesLoop, beNat_snoc]
    push_cast
    rw [ih, BitVec.toInt_sshiftRight, Int.shiftRight_eq_div_pow]
    have h1 : (((v &&& 255#64).setWidth 8).toNat : Int) = v.toInt % 256 := by
      have : (v &&& 255#64).setWidth 8 = v.setWidth 8 := by
        apply BitVec.eq_of_getLsbD_eq
        intro i hi
        have hc : i = 0 ∨ i = 1 ∨ i = 2 ∨ i = 3 ∨ i = 4 ∨ i = 5 ∨ i = 6 ∨ i = 7 := by omega
        rcases hc with rfl | rfl | rfl | rfl | rfl | rfl | rfl | rfl <;> simp <;> decide
      rw [this, BitVec.toNat_setWidth, BitVec.toInt_eq_toNat_cond]
      split <;> push_cast <;> omega
    rw [h1]
    generalize v.toInt = x
    show x / 256 % 256 ^ k * 256 + x % 256 = x % 256 ^ (k + 1)
    have hP : (0 : Int) < 256 ^ k := by positivity
    rw [pow_succ']
    generalize (256 : Int) ^ k = P at *
    have e1 := Int.emod_add_mul_ediv x 256
    have e2 := Int.emod_add_mul_ediv (x / 256) P
    have b1 := Int.emod_nonneg x (by decide : (256 : Int) ≠ 0)
    have b2 := Int.emod_lt_of_pos x (by decide : (0 : Int) < 256)
    have b3 := Int.emod_nonneg (x / 256) hP.ne'
    have b4 := Int.emod_lt_of_pos (x / 256) hP
    have hx : x = (x / 256 % P * 256 + x % 256) + 256 * P * (x / 256 / P) := by
      conv_lhs => rw [← e1, ← e2]
      ring
    have hm := congrArg (· % (256 * P)) hx
    refine Eq.trans ?_ hm.symm
    generalize x / 256 % P = a at *
    generalize x % 256 = r at *
    rw [Int.add_mul_emod_self_left, Int.emod_eq_of_lt (by omega) (by nlinarith)]

theorem twos_longToBytes (v : BitVec 64) : twos (longToBytes v) = v.toInt := by
  have hl : (longToBytes v).length = 8 := longBytesLoop_length 8 v
  have hb : (beNat (longToBytes v) : Int) = v.toInt % 256 ^ 8 := beNat_longBytesLoop 8 v
  have h2 : longToBytes v = natBe 8 ((v.toInt % (256 ^ 8 : Nat)).toNat) := by
    conv_lhs => rw [← natBe_beNat (longToBytes v), hl]
    congr 1
    have := congrArg Int.toNat hb
    simpa using this
  obtain ⟨h3, h4⟩ := fits_toInt (n := 64) (by decide) v
  rw [twos_eq, h2]
  apply signedOfBe_natBe 8 (by decide)
  · push_cast; exact h3
  · push_cast; omega

/-! ## Bytes to long -/

/-- One step of the composition. -/
def shl (acc : BitVec 64) (b : Byte) : BitVec 64 := (acc <<< 8) ||| b.signExtend 64

theorem bytesToLong_fold (b0 b1 b2 b3 b4 b5 b6 b7 : Byte) (rest : Bytes) :
    bytesToLong (b0 :: b1 :: b2 :: b3 :: b4 :: b5 :: b6 :: b7 :: rest) =
      .ok ([b1, b2, b3, b4, b5, b6, b7].foldl shl (b0.signExtend 64)) := by
  simp only [bytesToLong, List.foldl, shl, BitVec.shiftLeft_or_distrib, ← BitVec.shiftLeft_add]

theorem shl_neg (acc : BitVec 64) (b : Byte) (h : b.msb = true) : shl acc b = b.signExtend 64 := by
  apply BitVec.eq_of_getLsbD_eq
  intro i hi
  rw [shl, BitVec.getLsbD_or, BitVec.getLsbD_shiftLeft, BitVec.getLsbD_signExtend]
  by_cases h8 : i < 8
  · simp [h8]
  · simp [h8, h, hi]

theorem shl_nonneg (acc : BitVec 64) (b : Byte) (h : b.msb = false) (k : Nat) (hk : k + 8 ≤ 64) (hk1 : 1 ≤ k)
    (ha : Fits k acc.toInt) : (shl acc b).toInt = acc.toInt * 256 + b.toNat := by
  have hb : b.toNat < 128 := by
    have := BitVec.msb_eq_decide b
    rw [h] at this
    simpa using this.symm
  obtain ⟨h1, h2⟩ := ha
  have hp : (2 : Int) ^ (k - 1) ≤ 2 ^ 55 := by
    exact_mod_cast Nat.pow_le_pow_right (by decide) (by omega : k - 1 ≤ 55)
  have hadd : shl acc b = acc * 256 + b.signExtend 64 := by
    have hd : (acc <<< 8) &&& b.signExtend 64 = 0#64 := by
      apply BitVec.eq_of_getLsbD_eq
      intro i hi
      rw [BitVec.getLsbD_and, BitVec.getLsbD_shiftLeft, BitVec.getLsbD_signExtend]
      by_cases h8 : i < 8
      · simp [h8]
      · simp [h8, h]
    rw [shl, ← BitVec.add_eq_or_of_and_eq_zero _ _ hd, BitVec.shiftLeft_eq_mul_twoPow]
    rfl
  have he : (b.signExtend 64).toInt = b.toNat := by
    rw [BitVec.toInt_signExtend_of_le (by decide), BitVec.toInt_eq_toNat_of_msb h]
  have hm : (acc * 256).toInt = acc.toInt * 256 := by
    rw [BitVec.toInt_mul_of_not_smulOverflow]
    · rfl
    · simp only [BitVec.smulOverflow, show (256 : BitVec 64).toInt = 256 from rfl, Bool.or_eq_true, decide_eq_true_eq]
      omega
  rw [hadd, BitVec.toInt_add_of_not_saddOverflow, hm, he]
  simp only [BitVec.saddOverflow, hm, he, Bool.or_eq_true, decide_eq_true_eq]
  omega

theorem appendBytes_fits (b0 : Byte) (l : Bytes) : Fits (8 * (l.length + 1)) (appendBytes b0.toInt l) := by
  have h0 := fits_toInt (n := 8) (by decide) b0
  obtain ⟨h1, h2⟩ := h0
  have hb := beNat_lt l
  have hb' : (beNat l : Int) < 256 ^ l.length := by exact_mod_cast hb
  have hp : (2 : Int) ^ (8 * (l.length + 1) - 1) = 128 * 256 ^ l.length := by
    rw [show 8 * (l.length + 1) - 1 = 7 + 8 * l.length by omega, pow_add, pow_mul]; norm_num
  simp only [Nat.add_one_sub_one] at h1 h2
  rw [appendBytes_eq]
  generalize (256 : Int) ^ l.length = P at *
  have hP : 0 < P := by omega
  unfold Fits
  rw [hp]
  constructor <;> nlinarith

theorem appendBytes_neg_one (b0 : Byte) (l : Bytes) : appendBytes b0.toInt l = -1 ↔ ∀ j : Nat, j < l.length + 1 → (b0 :: l)[j]? = some 255 := by
  induction l using List.reverseRecOn with
  | nil =>
    constructor
    · intro h j hj
      have hj : j = 0 := by simp at hj; exact hj
      subst hj
      have : b0.toInt = (255 : Byte).toInt := h.trans rfl
      simp [BitVec.toInt_inj.1 this]
    · intro h
      have := h 0 (by simp)
      simp at this
      subst this; rfl
  | append_singleton l b ih =>
    rw [appendBytes_snoc]
    have hb := b.isLt
    constructor
    · intro h j hj
      have h1 : b.toNat = 255 := by omega
      have h2 : appendBytes b0.toInt l = -1 := by omega
      simp only [List.length_append, List.length_singleton] at hj
      by_cases hjl : j < l.length + 1
      · have := ih.1 h2 j hjl
        rw [← List.cons_append, List.getElem?_append_left (by simpa using hjl)]
        exact this
      · have : j = l.length + 1 := by omega
        subst this
        simp only [← List.cons_append]
        rw [List.getElem?_append_right (by simp)]
        simp only [List.length_cons, Nat.sub_self, List.getElem?_cons_zero, Option.some.injEq]
        exact BitVec.eq_of_toNat_eq h1
    · intro h
      have h1 : b = 255 := by
        have := h (l.length + 1) (by simp)
        rw [← List.cons_append, List.getElem?_append_right (by simp)] at this
        simpa using this
      have h2 : appendBytes b0.toInt l = -1 := by
        apply ih.2
        intro j hj
        have := h j (by simp; omega)
        rwa [← List.cons_append, List.getElem?_append_left (by simpa using hj)] at this
      rw [h1, h2]; rfl

theorem foldl_shl (b0 : Byte) (l : Bytes) (hl : l.length ≤ 7) :
    ((l.foldl shl (b0.signExtend 64)).toInt = appendBytes b0.toInt l ↔ SignClean (b0 :: l)) ∧
    Fits (8 * (l.length + 1)) (l.foldl shl (b0.signExtend 64)).toInt := by
  induction l using List.reverseRecOn with
  | nil =>
    have h : (b0.signExtend 64).toInt = b0.toInt := BitVec.toInt_signExtend_of_le (by decide)
    refine ⟨⟨fun _ i j hij b hb hm => ?_, fun _ => h⟩, ?_⟩
    · cases i with
      | zero => omega
      | succ i => simp at hb
    · simp only [List.foldl, h]; exact fits_toInt (by decide) b0
  | append_singleton l b ih =>
    simp only [List.length_append, List.length_singleton] at hl
    obtain ⟨ih1, ih2⟩ := ih (by omega)
    rw [List.foldl_append, appendBytes_snoc]
    simp only [List.foldl]
    have hb := b.isLt
    have hmsb : b.msb = decide (128 ≤ b.toNat) := BitVec.msb_eq_decide b
    have hsnoc : ∀ j : Nat, j < l.length + 1 → (b0 :: (l ++ [b]))[j]? = (b0 :: l)[j]? := by
      intro j hj
      rw [← List.cons_append, List.getElem?_append_left (by simpa using hj)]
    have hlast : (b0 :: (l ++ [b]))[l.length + 1]? = some b := by
      rw [← List.cons_append, List.getElem?_append_right (by simp)]; simp
    cases hm : b.msb
    · have hv := shl_nonneg _ b hm (8 * (l.length + 1)) (by omega) (by omega) ih2
      have hlt : b.toNat < 128 := by rw [hm] at hmsb; simpa using hmsb.symm
      refine ⟨?_, ?_⟩
      · rw [hv]
        constructor
        · intro h
          have hc := ih1.1 (by omega)
          intro i j hij c hc' hcm
          have hi : i < (b0 :: (l ++ [b])).length := (List.getElem?_eq_some_iff.1 hc').1
          simp only [List.length_cons, List.length_append, List.length_nil] at hi
          by_cases hil : i < l.length + 1
          · rw [hsnoc j (by omega)]
            exact hc i j hij c (by rw [← hsnoc i hil]; exact hc') hcm
          · have : i = l.length + 1 := by omega
            subst this
            rw [hlast] at hc'
            cases hc'
            omega
        · intro h
          have : SignClean (b0 :: l) := by
            intro i j hij c hc hcm
            have hi : i < l.length + 1 := by simpa using (List.getElem?_eq_some_iff.1 hc).1
            rw [← hsnoc j (by omega)]
            exact h i j hij c (by rw [hsnoc i hi]; exact hc) hcm
          rw [ih1.2 this]
      · rw [hv]
        obtain ⟨h1, h2⟩ := ih2
        have e : 8 * ((l ++ [b]).length + 1) - 1 = 8 * (l.length + 1) - 1 + 8 := by simp; omega
        unfold Fits
        rw [e, pow_add]
        constructor <;> omega
    · have hv : (shl (l.foldl shl (b0.signExtend 64)) b).toInt = b.toInt := by
        rw [shl_neg _ _ hm, BitVec.toInt_signExtend_of_le (by decide)]
      have hge : 128 ≤ b.toNat := by rw [hm] at hmsb; simpa using hmsb.symm
      have hbi : b.toInt = (b.toNat : Int) - 256 := by rw [BitVec.toInt_eq_msb_cond, hm]; rfl
      refine ⟨?_, ?_⟩
      · rw [hv, hbi]
        constructor
        · intro h
          have h1 := (appendBytes_neg_one b0 l).1 (by omega)
          intro i j hij c hc hcm
          have hi : i < (b0 :: (l ++ [b])).length := (List.getElem?_eq_some_iff.1 hc).1
          simp only [List.length_cons, List.length_append, List.length_nil] at hi
          rw [hsnoc j (by omega)]
          exact h1 j (by omega)
        · intro h
          have := (appendBytes_neg_one b0 l).2 fun j hj => by
            rw [← hsnoc j hj]
            exact h (l.length + 1) j hj b hlast hge
          omega
      · rw [hv]
        obtain ⟨h1, h2⟩ := fits_toInt (n := 8) (by decide) b
        have e : (2 : Int) ^ 7 ≤ 2 ^ (8 * ((l ++ [b]).length + 1) - 1) := by
          exact_mod_cast Nat.pow_le_pow_right (by decide) (by simp; omega)
        simp only [Nat.add_one_sub_one] at h1 h2
        constructor <;> omega

end Verif
