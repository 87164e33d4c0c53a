import Verif.Model.BigInt
import Mathlib.Tactic.Ring
import Mathlib.Tactic.Linarith

set_option linter.unusedSimpArgs false

namespace Verif

theorem natBe_length (k n : Nat) : (natBe k n).length = k := by
  induction k with
  | zero => rfl
  | succ k ih => simp [natBe, ih]

theorem beNat_lt (l : Bytes) : beNat l < 256 ^ l.length := by
  induction l with
  | nil => simp [beNat]
  | cons b l ih =>
    have hb : b.toNat < 256 := b.isLt
    simp only [beNat, List.length_cons, Nat.pow_succ]
    have : b.toNat * 256 ^ l.length ≤ 255 * 256 ^ l.length := Nat.mul_le_mul_right _ (by omega)
    omega

theorem beNat_natBe (k n : Nat) : beNat (natBe k n) = n % 256 ^ k := by
  induction k with
  | zero => simp [natBe, beNat, Nat.mod_one]
  | succ k ih =>
    simp only [natBe, beNat, natBe_length, ih, BitVec.toNat_ofNat]
    rw [show (2 : Nat) ^ 8 = 256 from rfl, Nat.pow_succ 256 k, Nat.mod_mul]
    ring

theorem natBe_mod (k n m : Nat) (h : k ≤ m) : natBe k (n % 256 ^ m) = natBe k n := by
  induction k with
  | zero => rfl
  | succ k ih =>
    simp only [natBe, ih (by omega)]
    congr 1
    apply BitVec.eq_of_toNat_eq
    simp only [BitVec.toNat_ofNat, show (2 : Nat) ^ 8 = 256 from rfl]
    obtain ⟨d, rfl⟩ : ∃ d, m = k + 1 + d := ⟨m - (k + 1), by omega⟩
    rw [show (256 : Nat) ^ (k + 1 + d) = 256 ^ k * (256 * 256 ^ d) by ring, Nat.mod_mul_right_div_self]
    exact Nat.mod_mul_right_mod _ _ _

theorem natBe_beNat (l : Bytes) : natBe l.length (beNat l) = l := by
  induction l with
  | nil => rfl
  | cons b l ih =>
    simp only [List.length_cons, natBe, beNat]
    have hl := beNat_lt l
    have e1 : (b.toNat * 256 ^ l.length + beNat l) / 256 ^ l.length = b.toNat := by
      rw [Nat.mul_comm, Nat.mul_add_div (Nat.pow_pos (by decide)), Nat.div_eq_of_lt hl]; omega
    have e2 : natBe l.length (b.toNat * 256 ^ l.length + beNat l) = natBe l.length (beNat l) := by
      rw [← natBe_mod _ (b.toNat * 256 ^ l.length + beNat l) _ (Nat.le_refl _)]
      rw [Nat.mul_comm, Nat.mul_add_mod, Nat.mod_eq_of_lt hl]
    rw [e1, e2, ih]
    simp

theorem signedLen_bounds (n : Int) :
    -(2 ^ (8 * signedLen n - 1) : Nat) ≤ n ∧ n < (2 ^ (8 * signedLen n - 1) : Nat) := by
  unfold signedLen
  split
  · rename_i h
    have h1 : n.toNat < 2 ^ n.toNat.size := Nat.lt_size_self _
    have h2 : 2 ^ n.toNat.size ≤ 2 ^ (8 * (n.toNat.size / 8 + 1) - 1) := Nat.pow_le_pow_right (by decide) (by omega)
    omega
  · rename_i h
    generalize hm : (-n - 1).toNat = m
    have h1 : m < 2 ^ m.size := Nat.lt_size_self _
    have h2 : 2 ^ m.size ≤ 2 ^ (8 * (m.size / 8 + 1) - 1) := Nat.pow_le_pow_right (by decide) (by omega)
    omega

theorem signedLen_pos (n : Int) : 1 ≤ signedLen n := by unfold signedLen; omega

/-- Minimality: any width that can hold the number is at least `signedLen`. -/
theorem signedLen_le {n : Int} {k : Nat} (hk : 1 ≤ k) (h1 : -(2 ^ (8 * k - 1) : Nat) ≤ n)
    (h2 : n < (2 ^ (8 * k - 1) : Nat)) : signedLen n ≤ k := by
  unfold signedLen
  split
  · have : n.toNat.size ≤ 8 * k - 1 := Nat.size_le.2 (by omega)
    omega
  · have : (-n - 1).toNat.size ≤ 8 * k - 1 := Nat.size_le.2 (by omega)
    omega

theorem pow_half (k : Nat) (hk : 1 ≤ k) : (256 : Nat) ^ k = 2 * 2 ^ (8 * k - 1) := by
  rw [show (256 : Nat) = 2 ^ 8 from rfl, ← Nat.pow_mul, ← Nat.pow_succ']
  congr 1; omega

theorem head_natBe (k n : Nat) (hn : n < 256 ^ (k + 1)) :
    ∃ b l, natBe (k + 1) n = b :: l ∧ l.length = k ∧ (128 ≤ b.toNat ↔ 2 ^ (8 * (k + 1) - 1) ≤ n) := by
  refine ⟨_, _, rfl, natBe_length _ _, ?_⟩
  have hp : 0 < 256 ^ k := Nat.pow_pos (by decide)
  have h1 : n / 256 ^ k < 256 := by
    rw [Nat.div_lt_iff_lt_mul hp]; rw [Nat.pow_succ] at hn; linarith
  simp only [BitVec.toNat_ofNat]
  rw [Nat.mod_eq_of_lt (by simpa using h1), Nat.le_div_iff_mul_le hp]
  have : 2 ^ (8 * (k + 1) - 1) = 128 * 256 ^ k := by
    rw [show (256 : Nat) = 2 ^ 8 from rfl, ← Nat.pow_mul, show (128 : Nat) = 2 ^ 7 from rfl, ← Nat.pow_add]
    congr 1; omega
  rw [this]

theorem signedOfBe_natBe (k : Nat) (hk : 1 ≤ k) (n : Int) (h1 : -(2 ^ (8 * k - 1) : Nat) ≤ n)
    (h2 : n < (2 ^ (8 * k - 1) : Nat)) : signedOfBe (natBe k (n % (256 ^ k : Nat)).toNat) = n := by
  obtain ⟨k, rfl⟩ : ∃ k', k = k' + 1 := ⟨k - 1, by omega⟩
  have hp := pow_half (k + 1) hk
  generalize hM : (256 : Nat) ^ (k + 1) = M at *
  generalize hH : 2 ^ (8 * (k + 1) - 1) = H at *
  have hr : 0 ≤ n % (M : Int) ∧ n % (M : Int) < M :=
    ⟨Int.emod_nonneg _ (by omega), Int.emod_lt_of_pos _ (by omega)⟩
  generalize hm : (n % (M : Int)).toNat = m
  have hmM : m < 256 ^ (k + 1) := by omega
  obtain ⟨b, l, he, hl, hb⟩ := head_natBe k m hmM
  rw [hH] at hb
  have hbe : beNat (natBe (k + 1) m) = m := by rw [beNat_natBe, Nat.mod_eq_of_lt hmM]
  have hlen := natBe_length (k + 1) m
  rw [he] at hbe hlen ⊢
  unfold signedOfBe
  simp only [hbe]
  rw [hlen, hM]
  by_cases hn : 0 ≤ n
  · have : n % (M : Int) = n := Int.emod_eq_of_lt hn (by omega)
    have : ¬ 128 ≤ b.toNat := by rw [hb]; omega
    rw [if_neg this]; omega
  · have : n % (M : Int) = n + M := by
      rw [← Int.add_emod_right, Int.emod_eq_of_lt (by omega) (by omega)]
    have : 128 ≤ b.toNat := by rw [hb]; omega
    rw [if_pos this]; omega

theorem signedOfBe_toSignedBe (n : Int) : signedOfBe (toSignedBe n) = n :=
  signedOfBe_natBe _ (signedLen_pos n) n (signedLen_bounds n).1 (signedLen_bounds n).2

theorem toSignedBe_length (n : Int) : (toSignedBe n).length = signedLen n := natBe_length _ _

theorem toSignedBe_length_le (n : Int) (h1 : -2 ^ 255 ≤ n) (h2 : n ≤ 2 ^ 255 - 1) : (toSignedBe n).length ≤ 32 := by
  rw [toSignedBe_length]
  refine signedLen_le (by decide) ?_ ?_
  · norm_num; omega
  · norm_num; omega

/-- The value read from `k` bytes fits in `k` bytes. -/
theorem signedOfBe_bounds (l : Bytes) (h : l ≠ []) :
    -(2 ^ (8 * l.length - 1) : Nat) ≤ signedOfBe l ∧ signedOfBe l < (2 ^ (8 * l.length - 1) : Nat) := by
  cases l with
  | nil => exact absurd rfl h
  | cons b t =>
    have hlt := beNat_lt (b :: t)
    have hp := pow_half (b :: t).length (by simp)
    have hb : beNat (b :: t) = b.toNat * 256 ^ t.length + beNat t := rfl
    have ht := beNat_lt t
    have hH : 2 ^ (8 * (b :: t).length - 1) = 128 * 256 ^ t.length := by
      rw [show (256 : Nat) = 2 ^ 8 from rfl, ← Nat.pow_mul, show (128 : Nat) = 2 ^ 7 from rfl, ← Nat.pow_add]
      congr 1; simp; omega
    unfold signedOfBe
    simp only
    rw [hH] at hp ⊢
    rw [hp] at hlt ⊢
    generalize 256 ^ t.length = M at *
    generalize beNat (b :: t) = v at *
    generalize beNat t = w at *
    split
    · have : 128 * M ≤ b.toNat * M := Nat.mul_le_mul_right _ ‹_›
      constructor <;> push_cast <;> omega
    · have : b.toNat * M ≤ 127 * M := Nat.mul_le_mul_right _ (by omega)
      constructor <;> push_cast <;> omega

end Verif
