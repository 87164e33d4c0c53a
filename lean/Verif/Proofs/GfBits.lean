import Verif.Model.Gf
import Mathlib.RingTheory.AdjoinRoot
import Mathlib.Algebra.CharP.Two
import Mathlib.Data.Nat.Bitwise
import Mathlib.Tactic.Ring

set_option linter.unusedSimpArgs false
set_option linter.unusedVariables false

/-! Numbers as polynomials over GF(2): `bits x n` is the sum of the `x ^ i` over the set bits `i` of `n`. -/

namespace Verif.Gf

variable {R : Type*} [CommRing R]

/-- Sum of `x ^ i` over the set bits `i` of `n`. -/
def bits (x : R) (n : Nat) : R := if n = 0 then 0 else ((n % 2 : Nat) : R) + x * bits x (n / 2)
termination_by n
decreasing_by omega

@[simp] theorem bits_zero (x : R) : bits x 0 = 0 := by rw [bits]; simp

theorem bits_eq (x : R) (n : Nat) : bits x n = ((n % 2 : Nat) : R) + x * bits x (n / 2) := by
  by_cases h : n = 0
  · subst h; simp
  · rw [bits, if_neg h]

@[simp] theorem bits_one (x : R) : bits x 1 = 1 := by rw [bits_eq]; simp

theorem bits_bit (x : R) (n b : Nat) (hb : b < 2) : bits x (2 * n + b) = (b : R) + x * bits x n := by
  rw [bits_eq]
  have h1 : (2 * n + b) % 2 = b := by omega
  have h2 : (2 * n + b) / 2 = n := by omega
  rw [h1, h2]

theorem bits_mul_two (x : R) (n : Nat) : bits x (2 * n) = x * bits x n := by
  have := bits_bit x n 0 (by omega); simpa using this

theorem bits_append (x : R) : ∀ (k lo hi : Nat), lo < 2 ^ k → bits x (lo + 2 ^ k * hi) = bits x lo + x ^ k * bits x hi := by
  intro k
  induction k with
  | zero => intro lo hi h; simp at h; subst h; simp
  | succ k ih =>
    intro lo hi h
    have e : lo + 2 ^ (k + 1) * hi = 2 * (lo / 2 + 2 ^ k * hi) + lo % 2 := by
      have : 2 ^ (k + 1) * hi = 2 * (2 ^ k * hi) := by rw [Nat.pow_succ]; ring
      omega
    rw [e, bits_bit x _ _ (by omega), ih (lo / 2) hi (by rw [Nat.pow_succ] at h; omega), bits_eq x lo]
    ring

theorem bits_shift (x : R) (k n : Nat) : bits x (2 ^ k * n) = x ^ k * bits x n := by
  have := bits_append x k 0 n (by positivity); simpa using this

theorem bits_xor [CharP R 2] (x : R) : ∀ (a b : Nat), bits x (a ^^^ b) = bits x a + bits x b := by
  intro a
  induction a using Nat.strongRecOn with
  | _ a ih =>
    intro b
    by_cases ha : a = 0
    · subst ha; simp
    rw [bits_eq x (a ^^^ b), bits_eq x a, bits_eq x b, Nat.xor_div_two, ih (a / 2) (by omega), Nat.xor_mod_two_eq]
    have : (((a + b) % 2 : Nat) : R) = ((a % 2 : Nat) : R) + ((b % 2 : Nat) : R) := by
      rw [← CharP.cast_eq_mod R 2, ← CharP.cast_eq_mod R 2, ← CharP.cast_eq_mod R 2, Nat.cast_add]
    rw [this]; ring

theorem map_bits {S : Type*} [CommRing S] (f : R →+* S) (x : R) : ∀ n, f (bits x n) = bits (f x) n := by
  intro n
  induction n using Nat.strongRecOn with
  | _ n ih =>
    by_cases h : n = 0
    · subst h; simp
    rw [bits_eq, bits_eq (f x), map_add, map_mul, map_natCast, ih _ (by omega)]

/-- Carry-less product. -/
def clmul (a b : Nat) : Nat := if b = 0 then 0 else (if b % 2 = 1 then a else 0) ^^^ (2 * clmul a (b / 2))
termination_by b
decreasing_by omega

theorem bits_clmul [CharP R 2] (x : R) (a : Nat) : ∀ b, bits x (clmul a b) = bits x a * bits x b := by
  intro b
  induction b using Nat.strongRecOn with
  | _ b ih =>
    rw [clmul]
    by_cases h : b = 0
    · simp [h]
    rw [if_neg h, bits_xor, bits_mul_two, ih _ (by omega), bits_eq x b]
    rcases Nat.mod_two_eq_zero_or_one b with h1 | h1 <;> rw [h1] <;> simp <;> ring

/-- The polynomial view: `bits X n` has degree below the number of bits, and determines `n`. -/
theorem bits_X_coeff (n i : Nat) : (bits (Polynomial.X : Polynomial (ZMod 2)) n).coeff i = if n.testBit i then 1 else 0 := by
  induction i generalizing n with
  | zero =>
    rw [bits_eq]
    simp only [Polynomial.coeff_add, Polynomial.mul_coeff_zero, Polynomial.coeff_X_zero, zero_mul, add_zero,
      Polynomial.coeff_natCast_ite, if_true, Nat.testBit_zero]
    rcases Nat.mod_two_eq_zero_or_one n with h | h <;> simp [h]
  | succ i ih =>
    rw [bits_eq]
    simp only [Polynomial.coeff_add, Polynomial.coeff_X_mul, ih, Polynomial.coeff_natCast_ite]
    simp [Nat.testBit_succ]

theorem bits_X_injective (m n : Nat) (h : bits (Polynomial.X : Polynomial (ZMod 2)) m = bits Polynomial.X n) : m = n := by
  apply Nat.eq_of_testBit_eq
  intro i
  have := congrArg (fun p => p.coeff i) h
  simp only [bits_X_coeff] at this
  cases h1 : m.testBit i <;> cases h2 : n.testBit i <;> rw [h1, h2] at this <;>
    first | rfl | exact absurd this (by decide)

theorem bits_X_degree (n k : Nat) (h : n < 2 ^ k) : (bits (Polynomial.X : Polynomial (ZMod 2)) n).degree < k := by
  rw [Polynomial.degree_lt_iff_coeff_zero]
  intro m hm
  rw [bits_X_coeff, Nat.testBit_lt_two_pow (lt_of_lt_of_le h (Nat.pow_le_pow_right (by omega) hm))]
  simp

end Verif.Gf
