import Verif.Proofs.GfBits
import Mathlib.Tactic.IntervalCases

set_option linter.unusedSimpArgs false
set_option linter.unusedVariables false

/-! `multiply` and `mul_by_i8` are multiplication in every ring of characteristic 2 with an element `x` such that
`x ^ 192 = x ^ 7 + x ^ 2 + x + 1`. -/

namespace Verif.Gf

/-- The 192 bits as a number. -/
def toN (a : Gf) : Nat := a.w0.toNat + 2 ^ 64 * (a.w1.toNat + 2 ^ 64 * a.w2.toNat)

theorem toN_lt (a : Gf) : toN a < 2 ^ 192 := by
  unfold toN
  have h0 := a.w0.isLt; have h1 := a.w1.isLt; have h2 := a.w2.isLt
  omega

theorem toN_inj {a b : Gf} (h : toN a = toN b) : a = b := by
  unfold toN at h
  have h0 := a.w0.isLt; have h1 := a.w1.isLt; have h2 := a.w2.isLt
  have g0 := b.w0.isLt; have g1 := b.w1.isLt; have g2 := b.w2.isLt
  obtain ⟨a0, a1, a2⟩ := a
  obtain ⟨b0, b1, b2⟩ := b
  simp only at *
  have e0 : a0 = b0 := BitVec.eq_of_toNat_eq (by omega)
  have e1 : a1 = b1 := BitVec.eq_of_toNat_eq (by omega)
  have e2 : a2 = b2 := BitVec.eq_of_toNat_eq (by omega)
  rw [e0, e1, e2]

theorem xor_append (k a b c d : Nat) (ha : a < 2 ^ k) (hc : c < 2 ^ k) :
    (a + 2 ^ k * b) ^^^ (c + 2 ^ k * d) = (a ^^^ c) + 2 ^ k * (b ^^^ d) := by
  have hac : a ^^^ c < 2 ^ k := Nat.xor_lt_two_pow ha hc
  apply Nat.eq_of_testBit_eq
  intro j
  rw [Nat.testBit_xor, Nat.add_comm a, Nat.add_comm c, Nat.add_comm (a ^^^ c), Nat.testBit_two_pow_mul_add _ ha,
    Nat.testBit_two_pow_mul_add _ hc, Nat.testBit_two_pow_mul_add _ hac]
  split <;> simp [Nat.testBit_xor]

theorem toN_add (a b : Gf) : toN (add a b) = toN a ^^^ toN b := by
  unfold toN add
  simp only [BitVec.toNat_xor]
  rw [xor_append 64 _ _ _ _ a.w0.isLt b.w0.isLt, xor_append 64 _ _ _ _ a.w1.isLt b.w1.isLt]

/-- The word shifts used by the code, for a shift of `k` bits. -/
def shiftWords (k : Nat) (a : Gf) : Gf :=
  ⟨a.w0 <<< k, (a.w1 <<< k) ||| (a.w0 >>> (64 - k)), (a.w2 <<< k) ||| (a.w1 >>> (64 - k))⟩

theorem shl_or_toNat (k : Nat) (hk : k ≤ 64) (a b : BitVec 64) :
    ((a <<< k) ||| (b >>> (64 - k))).toNat = a.toNat * 2 ^ k % 2 ^ 64 + b.toNat / 2 ^ (64 - k) := by
  have hb := b.isLt
  have hsplit : 2 ^ 64 = 2 ^ (64 - k) * 2 ^ k := by rw [← Nat.pow_add]; congr 1; omega
  have hlt : b.toNat / 2 ^ (64 - k) < 2 ^ k := by
    rw [Nat.div_lt_iff_lt_mul (by positivity), Nat.mul_comm, ← hsplit]; exact hb
  simp only [BitVec.toNat_or, BitVec.toNat_shiftLeft, BitVec.toNat_ushiftRight, Nat.shiftLeft_eq, Nat.shiftRight_eq_div_pow]
  have hm : a.toNat * 2 ^ k % 2 ^ 64 = (a.toNat % 2 ^ (64 - k)) * 2 ^ k := by
    rw [hsplit, Nat.mul_mod_mul_right]
  rw [hm, ← Nat.shiftLeft_eq, ← Nat.shiftLeft_add_eq_or_of_lt hlt]

theorem shift_value_one (a : Gf) : toN (shiftWords 1 a) + 2 ^ 192 * (a.w2.toNat / 2 ^ 63) = 2 ^ 1 * toN a := by
  unfold toN shiftWords
  simp only [shl_or_toNat 1 (by omega), BitVec.toNat_shiftLeft, Nat.shiftLeft_eq]
  have h0 := a.w0.isLt; have h1 := a.w1.isLt; have h2 := a.w2.isLt
  omega

theorem shift_value_four (a : Gf) : toN (shiftWords 4 a) + 2 ^ 192 * (a.w2.toNat / 2 ^ 60) = 2 ^ 4 * toN a := by
  unfold toN shiftWords
  simp only [shl_or_toNat 4 (by omega), BitVec.toNat_shiftLeft, Nat.shiftLeft_eq]
  have h0 := a.w0.isLt; have h1 := a.w1.isLt; have h2 := a.w2.isLt
  omega

theorem irredMul_clmul : ∀ i, i < 16 → (irredMul i).toNat = clmul 135 i := by
  intro i hi
  interval_cases i <;> decide +kernel

section
variable {R : Type*} [CommRing R] [CharP R 2] (x : R) (hx : x ^ 192 = bits x 135)

/-- The value of an element. -/
def val (a : Gf) : R := bits x (toN a)

theorem val_add (a b : Gf) : val x (add a b) = val x a + val x b := by
  unfold val; rw [toN_add, bits_xor]

theorem val_zero : val x zero = 0 := by
  have : toN zero = 0 := rfl
  unfold val; rw [this, bits_zero]

theorem val_w0 (w : BitVec 64) : val x ⟨w, 0#64, 0#64⟩ = bits x w.toNat := by
  unfold val toN; simp

include hx in
theorem val_reduce (k : Nat) (s a : Gf) (hi : Nat) (hhi : hi < 16)
    (h : toN s + 2 ^ 192 * hi = 2 ^ k * toN a) :
    val x (add s ⟨irredMul hi, 0#64, 0#64⟩) = x ^ k * val x a := by
  rw [val_add, val_w0, irredMul_clmul hi hhi, bits_clmul]
  unfold val
  rw [← bits_shift, ← h, bits_append x 192 _ _ (toN_lt s), hx]

theorem timesX_eq (a : Gf) : timesX a = add (shiftWords 1 a) ⟨irredMul (a.w2 >>> 63).toNat, 0#64, 0#64⟩ := by
  unfold timesX add shiftWords; simp

theorem timesX4_eq (a : Gf) : timesX4 a = add (shiftWords 4 a) ⟨irredMul (a.w2 >>> 60).toNat, 0#64, 0#64⟩ := by
  unfold timesX4 add shiftWords; simp

include hx in
theorem val_timesX (a : Gf) : val x (timesX a) = x * val x a := by
  rw [timesX_eq]
  have h2 := a.w2.isLt
  have e : (a.w2 >>> 63).toNat = a.w2.toNat / 2 ^ 63 := by simp [Nat.shiftRight_eq_div_pow]
  rw [e, val_reduce x hx 1 _ a _ (by omega) (shift_value_one a), pow_one]

include hx in
theorem val_timesX4 (a : Gf) : val x (timesX4 a) = x ^ 4 * val x a := by
  rw [timesX4_eq]
  have h2 := a.w2.isLt
  have e : (a.w2 >>> 60).toNat = a.w2.toNat / 2 ^ 60 := by simp [Nat.shiftRight_eq_div_pow]
  rw [e, val_reduce x hx 4 _ a _ (by omega) (shift_value_four a)]

include hx in
theorem val_mulTable (a : Gf) (i : Nat) (hi : i < 16) :
    val x (((mulTable a)[i]?).getD zero) = val x a * bits x i := by
  have b2 : bits x 2 = x := by rw [bits_eq]; norm_num
  have b3 : bits x 3 = 1 + x := by rw [bits_eq]; norm_num
  have b4 : bits x 4 = x ^ 2 := by rw [bits_eq]; norm_num [b2]; ring
  have b5 : bits x 5 = 1 + x ^ 2 := by rw [bits_eq]; norm_num [b2]; ring
  have b6 : bits x 6 = x + x ^ 2 := by rw [bits_eq]; norm_num [b3]; ring
  have b7 : bits x 7 = 1 + x + x ^ 2 := by rw [bits_eq]; norm_num [b3]; ring
  have b8 : bits x 8 = x ^ 3 := by rw [bits_eq]; norm_num [b4]; ring
  have b9 : bits x 9 = 1 + x ^ 3 := by rw [bits_eq]; norm_num [b4]; ring
  have b10 : bits x 10 = x + x ^ 3 := by rw [bits_eq]; norm_num [b5]; ring
  have b11 : bits x 11 = 1 + x + x ^ 3 := by rw [bits_eq]; norm_num [b5]; ring
  have b12 : bits x 12 = x ^ 2 + x ^ 3 := by rw [bits_eq]; norm_num [b6]; ring
  have b13 : bits x 13 = 1 + x ^ 2 + x ^ 3 := by rw [bits_eq]; norm_num [b6]; ring
  have b14 : bits x 14 = x + x ^ 2 + x ^ 3 := by rw [bits_eq]; norm_num [b7]; ring
  have b15 : bits x 15 = 1 + x + x ^ 2 + x ^ 3 := by rw [bits_eq]; norm_num [b7]; ring
  unfold mulTable
  interval_cases i <;>
  simp only [List.cons_append, List.nil_append, List.drop_succ_cons, List.drop_zero, List.map_cons, List.map_nil,
    List.getElem?_cons_zero, List.getElem?_cons_succ, Option.getD_some, val_add, val_timesX x hx, val_zero,
    bits_zero, bits_one, b2, b3, b4, b5, b6, b7, b8, b9, b10, b11, b12, b13, b14, b15] <;>
  ring

include hx in
theorem val_mulStep (a : Gf) (m : BitVec 64) (w : Gf) (i : Nat) (c : R)
    (h : val x w = c + val x a * bits x (m.toNat / 2 ^ (i + 4))) :
    val x (mulStep (mulTable a) m w i) = x ^ 4 * c + val x a * bits x (m.toNat / 2 ^ i) := by
  unfold mulStep
  have e : ((m >>> i) &&& 15#64).toNat = m.toNat / 2 ^ i % 16 := by
    rw [BitVec.toNat_and, BitVec.toNat_ushiftRight, Nat.shiftRight_eq_div_pow]
    exact Nat.and_two_pow_sub_one_eq_mod _ 4
  have hs : m.toNat / 2 ^ i = m.toNat / 2 ^ i % 16 + 2 ^ 4 * (m.toNat / 2 ^ (i + 4)) := by
    rw [Nat.pow_add, ← Nat.div_div_eq_div_mul]; omega
  rw [val_add, val_timesX4 x hx, e, val_mulTable x hx a _ (Nat.mod_lt _ (by omega)), h]
  have hb := bits_append x 4 (m.toNat / 2 ^ i % 16) (m.toNat / 2 ^ (i + 4)) (by have := Nat.mod_lt (m.toNat / 2 ^ i) (show 0 < 16 by omega); omega)
  rw [← hs] at hb
  rw [hb]
  ring

include hx in
theorem val_word (a : Gf) (m : BitVec 64) (w : Gf) :
    val x (nibbles.foldl (mulStep (mulTable a) m) w) = x ^ 64 * val x w + val x a * bits x m.toNat := by
  have hm := m.isLt
  have h0 : val x w = val x w + val x a * bits x (m.toNat / 2 ^ (60 + 4)) := by
    rw [Nat.div_eq_of_lt (by omega)]; simp
  unfold nibbles
  simp only [List.foldl_cons, List.foldl_nil]
  have h1 := val_mulStep x hx a m _ 60 _ h0
  have h2 := val_mulStep x hx a m _ 56 _ h1
  have h3 := val_mulStep x hx a m _ 52 _ h2
  have h4 := val_mulStep x hx a m _ 48 _ h3
  have h5 := val_mulStep x hx a m _ 44 _ h4
  have h6 := val_mulStep x hx a m _ 40 _ h5
  have h7 := val_mulStep x hx a m _ 36 _ h6
  have h8 := val_mulStep x hx a m _ 32 _ h7
  have h9 := val_mulStep x hx a m _ 28 _ h8
  have h10 := val_mulStep x hx a m _ 24 _ h9
  have h11 := val_mulStep x hx a m _ 20 _ h10
  have h12 := val_mulStep x hx a m _ 16 _ h11
  have h13 := val_mulStep x hx a m _ 12 _ h12
  have h14 := val_mulStep x hx a m _ 8 _ h13
  have h15 := val_mulStep x hx a m _ 4 _ h14
  have h16 := val_mulStep x hx a m _ 0 _ h15
  rw [h16]
  simp only [Nat.pow_zero, Nat.div_one]
  ring

include hx in
theorem val_multiply (a b : Gf) : val x (multiply a b) = val x a * val x b := by
  unfold multiply
  simp only [List.foldl_cons, List.foldl_nil]
  rw [val_word x hx, val_word x hx, val_word x hx, val_zero]
  have : val x b = bits x b.w0.toNat + x ^ 64 * (bits x b.w1.toNat + x ^ 64 * bits x b.w2.toNat) := by
    unfold val toN
    rw [bits_append x 64 _ _ b.w0.isLt, bits_append x 64 _ _ b.w1.isLt]
  rw [this]; ring

/-! ### `mul_by_i8` -/

theorem mul_bit (w : BitVec 64) (t : BitVec 64) (ht : t = 0#64 ∨ t = 1#64) : w * t = if t = 1#64 then w else 0#64 := by
  rcases ht with rfl | rfl <;> simp

theorem mulI8Step_eq (a : Gf) (b : Byte) (w : Gf) (i : Nat) (hi : i < 8) :
    mulI8Step a b w i = add (timesX w) (if b.toNat / 2 ^ i % 2 = 1 then a else zero) := by
  have ht : ((b >>> i) &&& 1#8).signExtend 64 = if b.toNat / 2 ^ i % 2 = 1 then 1#64 else 0#64 := by
    revert b; interval_cases i <;> decide
  have hw3 : ∀ w : BitVec 64, irred * (w >>> 63) = irredMul (w >>> 63).toNat := by
    intro w
    have : w.toNat / 2 ^ 63 < 2 := by have := w.isLt; omega
    have h1 : w >>> 63 = 0#64 ∨ w >>> 63 = 1#64 := by
      have e : (w >>> 63).toNat = w.toNat / 2 ^ 63 := by simp [Nat.shiftRight_eq_div_pow]
      rcases (by omega : w.toNat / 2 ^ 63 = 0 ∨ w.toNat / 2 ^ 63 = 1) with h | h
      · left; apply BitVec.eq_of_toNat_eq; rw [e, h]; rfl
      · right; apply BitVec.eq_of_toNat_eq; rw [e, h]; rfl
    rcases h1 with h | h <;> rw [h] <;> decide
  unfold mulI8Step
  simp only [ht, hw3]
  split
  · simp only [add, timesX, BitVec.mul_one, Gf.mk.injEq, and_true]
    rw [BitVec.xor_comm a.w0, BitVec.xor_assoc]
  · simp [add, timesX, zero]

include hx in
theorem val_mulI8Step (a : Gf) (b : Byte) (w : Gf) (i : Nat) (hi : i < 8)
    (h : val x w = val x a * bits x (b.toNat / 2 ^ (i + 1))) :
    val x (mulI8Step a b w i) = val x a * bits x (b.toNat / 2 ^ i) := by
  rw [mulI8Step_eq a b w i hi, val_add, val_timesX x hx, h]
  conv_rhs => rw [bits_eq]
  have : b.toNat / 2 ^ i / 2 = b.toNat / 2 ^ (i + 1) := by rw [Nat.div_div_eq_div_mul, Nat.pow_succ]
  rw [this]
  rcases Nat.mod_two_eq_zero_or_one (b.toNat / 2 ^ i) with h1 | h1 <;> rw [h1] <;> simp [val_zero] <;> ring

include hx in
theorem val_mulByI8 (a : Gf) (b : Byte) : val x (mulByI8 a b) = val x a * bits x b.toNat := by
  have hb := b.isLt
  have h0 : val x zero = val x a * bits x (b.toNat / 2 ^ (7 + 1)) := by
    rw [Nat.div_eq_of_lt (by omega), val_zero]; simp
  unfold mulByI8
  simp only [List.foldl_cons, List.foldl_nil]
  have h1 := val_mulI8Step x hx a b _ 7 (by omega) h0
  have h2 := val_mulI8Step x hx a b _ 6 (by omega) h1
  have h3 := val_mulI8Step x hx a b _ 5 (by omega) h2
  have h4 := val_mulI8Step x hx a b _ 4 (by omega) h3
  have h5 := val_mulI8Step x hx a b _ 3 (by omega) h4
  have h6 := val_mulI8Step x hx a b _ 2 (by omega) h5
  have h7 := val_mulI8Step x hx a b _ 1 (by omega) h6
  have h8 := val_mulI8Step x hx a b _ 0 (by omega) h7
  rw [h8]; simp

end

end Verif.Gf
