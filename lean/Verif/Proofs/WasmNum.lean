import Verif.Model.WasmNum
import Verif.Spec.WasmNum
import Verif.Proofs.JsConv

/-!
# Lemmas about the numbers of the JavaScript interface
-/

namespace Verif.Wasm
open Verif.Spec

theorem pow_dropped {n : Nat} (h : dropped n ≠ 0) : 2 ^ 52 * 2 ^ dropped n ≤ n := by
  have hn : n ≠ 0 := by
    rintro rfl
    exact h (by decide)
  have h1 := Nat.log2_self_le hn
  have h2 : n.log2 = 52 + dropped n := by unfold dropped at *; omega
  rw [h2, Nat.pow_add] at h1
  exact h1

theorem lt_pow_dropped (n : Nat) : n < 2 ^ 53 * 2 ^ dropped n := by
  have h1 : n < 2 ^ (n.log2 + 1) := Nat.lt_log2_self
  have h2 : 2 ^ (n.log2 + 1) ≤ 2 ^ (53 + dropped n) := Nat.pow_le_pow_right (by omega) (by unfold dropped; omega)
  rw [Nat.pow_add 2 53] at h2
  exact Nat.lt_of_lt_of_le h1 h2

/-- Rounding is at least as close as both neighbours. -/
theorem roundEven_near (n k : Nat) :
    (roundEven n k = n / 2 ^ k ∧ 2 * (n % 2 ^ k) ≤ 2 ^ k) ∨ (roundEven n k = n / 2 ^ k + 1 ∧ 2 ^ k ≤ 2 * (n % 2 ^ k)) := by
  unfold roundEven
  split
  · left; exact ⟨rfl, by omega⟩
  · split
    · right; exact ⟨rfl, by omega⟩
    · split
      · left; exact ⟨rfl, by omega⟩
      · right; exact ⟨rfl, by omega⟩

theorem roundEven_zero (n : Nat) : roundEven n 0 = n := by
  unfold roundEven
  simp [Nat.mod_one]

theorem roundEven_le (n : Nat) : roundEven n (dropped n) ≤ 2 ^ 53 := by
  have h := lt_pow_dropped n
  have hq : n / 2 ^ dropped n < 2 ^ 53 := (Nat.div_lt_iff_lt_mul (Nat.two_pow_pos _)).2 h
  rcases roundEven_near n (dropped n) with ⟨h1, _⟩ | ⟨h1, _⟩ <;> omega

/-- No whole double lies strictly between the two neighbours. -/
theorem no_between {n : Nat} (hk : dropped n ≠ 0) {m e : Nat} (hm : m ≤ 2 ^ 53)
    (h1 : n / 2 ^ dropped n * 2 ^ dropped n < m * 2 ^ e) (h2 : m * 2 ^ e < (n / 2 ^ dropped n + 1) * 2 ^ dropped n) : False := by
  have hlow := pow_dropped hk
  have hq : 2 ^ 52 ≤ n / 2 ^ dropped n := (Nat.le_div_iff_mul_le (Nat.two_pow_pos _)).2 hlow
  generalize hkk : dropped n = k at *
  generalize n / 2 ^ k = q at *
  have he : k ≤ e := by
    by_contra hlt
    have h3 : 2 ^ 52 * 2 ^ k ≤ q * 2 ^ k := Nat.mul_le_mul_right _ hq
    have h4 : m * 2 ^ e ≤ 2 ^ 53 * 2 ^ e := Nat.mul_le_mul_right _ hm
    have h5 : 2 ^ (e + 1) ≤ 2 ^ k := Nat.pow_le_pow_right (by omega) (by omega)
    rw [Nat.pow_succ] at h5
    have h6 : 2 ^ 53 * 2 ^ e = 2 ^ 52 * (2 ^ e * 2) := by ring
    have h7 : 2 ^ 52 * (2 ^ e * 2) ≤ 2 ^ 52 * 2 ^ k := Nat.mul_le_mul_left _ h5
    omega
  obtain ⟨d, rfl⟩ := Nat.exists_eq_add_of_le he
  have h8 : m * 2 ^ (k + d) = (m * 2 ^ d) * 2 ^ k := by rw [Nat.pow_add]; ring
  rw [h8] at h1 h2
  have h9 := Nat.lt_of_mul_lt_mul_right h1
  have h10 := Nat.lt_of_mul_lt_mul_right h2
  omega

/-- Nearest among the whole doubles that are not negative. -/
theorem round_nearest (n : Nat) {m e : Nat} (hm : m ≤ 2 ^ 53) :
    ((roundEven n (dropped n) * 2 ^ dropped n : Nat) - n : Int).natAbs ≤ ((m * 2 ^ e : Nat) - n : Int).natAbs := by
  by_cases hk : dropped n = 0
  · rw [hk, roundEven_zero]; simp
  · have hb : m * 2 ^ e ≤ n / 2 ^ dropped n * 2 ^ dropped n ∨ (n / 2 ^ dropped n + 1) * 2 ^ dropped n ≤ m * 2 ^ e := by
      by_contra hc
      simp only [not_or, not_le] at hc
      exact no_between hk hm hc.1 hc.2
    have hn := roundEven_near n (dropped n)
    have hd := Nat.div_add_mod n (2 ^ dropped n)
    have hr := Nat.mod_lt n (Nat.two_pow_pos (dropped n))
    generalize 2 ^ dropped n = p at *
    generalize m * 2 ^ e = x at *
    generalize n % p = r at *
    generalize n / p = q at *
    generalize roundEven n (dropped n) = R at *
    have e1 : (q + 1) * p = q * p + p := by ring
    rw [Nat.mul_comm p q] at hd
    rw [e1] at hb
    rcases hn with ⟨hR, h⟩ | ⟨hR, h⟩
    · rw [hR]
      generalize q * p = qp at *
      omega
    · rw [hR, e1]
      generalize q * p = qp at *
      omega

/-- Nearest among all whole doubles. -/
theorem round_nearest_int (n : Nat) {m : Int} {e : Nat} (h : m ≤ 2 ^ 53) :
    ((roundEven n (dropped n) * 2 ^ dropped n : Nat) - n : Int).natAbs ≤ (m * 2 ^ e - n : Int).natAbs := by
  by_cases h0 : 0 ≤ m
  · obtain ⟨k, rfl⟩ := Int.eq_ofNat_of_zero_le h0
    have := round_nearest n (m := k) (e := e) (by exact_mod_cast h)
    simpa using this
  · have h1 := round_nearest n (m := 0) (e := 0) (by omega)
    have h2 : m * 2 ^ e ≤ 0 := by
      have : (0 : Int) < 2 ^ e := by positivity
      nlinarith
    simp only [Nat.zero_mul] at h1
    omega

/-- Of two nearest ones the even one is taken. -/
theorem round_tie (n : Nat) {m e : Nat} (hm : m ≤ 2 ^ 53) (hne : m * 2 ^ e ≠ roundEven n (dropped n) * 2 ^ dropped n)
    (heq : ((m * 2 ^ e : Nat) - n : Int).natAbs = ((roundEven n (dropped n) * 2 ^ dropped n : Nat) - n : Int).natAbs) :
    (((m * 2 ^ e : Nat) : Int) - (roundEven n (dropped n) * 2 ^ dropped n : Nat)).natAbs = 2 ^ dropped n ∧
    roundEven n (dropped n) % 2 = 0 := by
  by_cases hk : dropped n = 0
  · rw [hk, roundEven_zero] at hne heq
    simp only [Nat.pow_zero, Nat.mul_one] at hne heq
    generalize m * 2 ^ e = x at *
    omega
  · have hb : m * 2 ^ e ≤ n / 2 ^ dropped n * 2 ^ dropped n ∨ (n / 2 ^ dropped n + 1) * 2 ^ dropped n ≤ m * 2 ^ e := by
      by_contra hc
      simp only [not_or, not_le] at hc
      exact no_between hk hm hc.1 hc.2
    have hn := roundEven_near n (dropped n)
    have he : 2 * (n % 2 ^ dropped n) = 2 ^ dropped n → roundEven n (dropped n) % 2 = 0 := by
      intro h
      unfold roundEven
      rw [if_neg (by omega), if_neg (by omega)]
      split <;> omega
    have hd := Nat.div_add_mod n (2 ^ dropped n)
    have hr := Nat.mod_lt n (Nat.two_pow_pos (dropped n))
    generalize 2 ^ dropped n = p at *
    generalize m * 2 ^ e = x at *
    generalize n % p = r at *
    generalize n / p = q at *
    generalize roundEven n (dropped n) = R at *
    have e1 : (q + 1) * p = q * p + p := by ring
    rw [Nat.mul_comm p q] at hd
    rw [e1] at hb
    rcases hn with ⟨hR, h⟩ | ⟨hR, h⟩
    · rw [hR] at heq hne ⊢
      rw [hR] at he
      generalize q * p = qp at *
      omega
    · rw [hR, e1] at heq hne
      rw [hR] at he
      rw [hR, e1]
      generalize q * p = qp at *
      omega

/-- The same for all whole doubles. -/
theorem round_tie_int (n : Nat) {m : Int} {e : Nat} (h : m ≤ 2 ^ 53)
    (hne : m * 2 ^ e ≠ ((roundEven n (dropped n) * 2 ^ dropped n : Nat) : Int))
    (heq : (m * 2 ^ e - n : Int).natAbs = ((roundEven n (dropped n) * 2 ^ dropped n : Nat) - n : Int).natAbs) :
    2 * (m * 2 ^ e - ((roundEven n (dropped n) * 2 ^ dropped n : Nat) : Int)) ∣ ((roundEven n (dropped n) * 2 ^ dropped n : Nat) : Int) := by
  by_cases h0 : 0 ≤ m
  · obtain ⟨k, rfl⟩ := Int.eq_ofNat_of_zero_le h0
    have ec : ((k : Int) * 2 ^ e) = ((k * 2 ^ e : Nat) : Int) := by push_cast; rfl
    rw [ec] at hne heq ⊢
    obtain ⟨h1, h2⟩ := round_tie n (m := k) (e := e) (by exact_mod_cast h) (by exact_mod_cast hne) heq
    obtain ⟨c, hc⟩ := Nat.dvd_of_mod_eq_zero h2
    generalize ((k * 2 ^ e : Nat) : Int) - (roundEven n (dropped n) * 2 ^ dropped n : Nat) = d at *
    rw [hc, ← h1]
    push_cast
    rcases abs_choice d with h | h <;> rw [h]
    · exact ⟨c, by ring⟩
    · exact ⟨-c, by ring⟩
  · have h1 := round_nearest n (m := 0) (e := 0) (by omega)
    have h2 : m * 2 ^ e < 0 := by
      have : (0 : Int) < 2 ^ e := by positivity
      nlinarith
    simp only [Nat.zero_mul] at h1
    omega

theorem asNum_nearest (v : BitVec 64) : NearestDouble (i64AsNum v) v.toInt := by
  have hb : v.toInt.natAbs ≤ 2 ^ 63 := by
    have h1 := BitVec.toInt_lt (x := v)
    have h2 := BitVec.le_toInt (x := v)
    omega
  have hk : dropped v.toInt.natAbs ≤ 971 := by
    unfold dropped
    by_cases h0 : v.toInt.natAbs = 0
    · rw [h0]; decide
    · have := (Nat.log2_lt h0 (k := 64)).2 (by omega)
      omega
  have hR := roundEven_le v.toInt.natAbs
  unfold i64AsNum
  generalize v.toInt = i at *
  refine ⟨i.sign * roundEven i.natAbs (dropped i.natAbs) * 2 ^ dropped i.natAbs, ?_, ?_, ?_, ?_⟩
  · simp [NumIs]
  · refine ⟨i.sign * roundEven i.natAbs (dropped i.natAbs), dropped i.natAbs, ?_, ?_, hk, rfl⟩ <;>
      rcases Int.sign_trichotomy i with h | h | h <;> rw [h] <;> omega
  · rintro y ⟨m, e, h1, h2, _, rfl⟩
    rcases lt_trichotomy i 0 with h | h | h
    · have hi : i = -(i.natAbs : Int) := by omega
      rw [Int.sign_eq_neg_one_of_neg h]
      have := round_nearest_int i.natAbs (m := -m) (e := e) (by omega)
      generalize i.natAbs = n at *
      subst hi
      push_cast at this
      have e1 : (-1 : Int) * roundEven n (dropped n) * 2 ^ dropped n = -(roundEven n (dropped n) * 2 ^ dropped n) := by ring
      have e2 : -m * 2 ^ e = -(m * 2 ^ e) := by ring
      rw [e1]
      rw [e2] at this
      omega
    · subst h
      simp
    · have hi : i = (i.natAbs : Int) := by omega
      rw [Int.sign_eq_one_of_pos h]
      have := round_nearest_int i.natAbs (m := m) (e := e) h2
      generalize i.natAbs = n at *
      subst hi
      push_cast at this
      rw [one_mul]
      exact this
  · rintro y ⟨m, e, h1, h2, _, rfl⟩ hne heq
    rcases lt_trichotomy i 0 with h | h | h
    · have hi : i = -(i.natAbs : Int) := by omega
      rw [Int.sign_eq_neg_one_of_neg h] at hne heq ⊢
      have := round_tie_int i.natAbs (m := -m) (e := e) (by omega)
      generalize i.natAbs = n at *
      subst hi
      push_cast at this
      have e1 : (-1 : Int) * roundEven n (dropped n) * 2 ^ dropped n = -(roundEven n (dropped n) * 2 ^ dropped n) := by ring
      have e2 : -m * 2 ^ e = -(m * 2 ^ e) := by ring
      rw [e1] at hne heq ⊢
      rw [e2] at this
      have t := this (by omega) (by omega)
      generalize (roundEven n (dropped n) : Int) * 2 ^ dropped n = X at *
      have e3 : 2 * (m * 2 ^ e - -X) = -(2 * (-(m * 2 ^ e) - X)) := by ring
      rw [e3]
      exact (Int.neg_dvd.2 (Int.dvd_neg.2 t))
    · subst h
      simp
    · have hi : i = (i.natAbs : Int) := by omega
      rw [Int.sign_eq_one_of_pos h, one_mul] at hne heq ⊢
      have := round_tie_int i.natAbs (m := m) (e := e) h2
      generalize i.natAbs = n at *
      subst hi
      push_cast at this
      exact this hne heq

end Verif.Wasm
