import Verif.Proofs.GfField

set_option linter.unusedSimpArgs false
set_option linter.unusedVariables false

/-! The field, inversion. -/

namespace Verif.Gf
open Polynomial

/-- GF(2)[x] / (x^192 + x^7 + x^2 + x + 1). -/
abbrev K := AdjoinRoot P

instance : Fact (Irreducible P) := ⟨P_irreducible⟩
instance : Fact (Nat.Prime 2) := ⟨Nat.prime_two⟩
instance : CharP K 2 := charP_of_injective_algebraMap (algebraMap (ZMod 2) K).injective 2

/-- The class of `x`. -/
noncomputable def root : K := AdjoinRoot.root P

theorem root_rel : root ^ 192 = bits root 135 := by
  apply relation
  have h1 : AdjoinRoot.mk P P = 0 := AdjoinRoot.mk_self
  conv at h1 => lhs; arg 2; unfold P
  simpa [root] using h1

/-- The field element meant by three words. -/
noncomputable def φ (a : Gf) : K := val root a

theorem φ_add (a b : Gf) : φ (add a b) = φ a + φ b := val_add root a b
theorem φ_mul (a b : Gf) : φ (multiply a b) = φ a * φ b := val_multiply root root_rel a b
theorem φ_mulI8 (a : Gf) (b : Byte) : φ (mulByI8 a b) = φ a * bits root b.toNat := val_mulByI8 root root_rel a b
theorem φ_pow (k : Nat) (hk : k < 7) (a : Gf) : φ (powLin k a) = φ a ^ 2 ^ 2 ^ k := val_powLin root root_rel k hk a
theorem φ_zero : φ zero = 0 := val_zero root
theorem φ_one : φ one = 1 := val_one root

theorem mk_bits (n : Nat) : AdjoinRoot.mk P (bits X n) = bits root n := map_bits (AdjoinRoot.mk P) X n

theorem mk_inj_aux (f a b : (ZMod 2)[X]) (h : AdjoinRoot.mk f a = AdjoinRoot.mk f b) (k : ℕ) (hf : f.natDegree = k)
    (hf0 : f ≠ 0) (ha : a.degree < k) (hb : b.degree < k) : a = b := by
  have h' : f ∣ a - b := AdjoinRoot.mk_eq_mk.1 h
  have hd : (a - b).degree < f.degree := by
    rw [Polynomial.degree_eq_natDegree hf0, hf]
    exact lt_of_le_of_lt (Polynomial.degree_sub_le _ _) (max_lt ha hb)
  exact sub_eq_zero.1 (Polynomial.eq_zero_of_dvd_of_degree_lt h' hd)

theorem bits_root_inj {m n : Nat} (hm : m < 2 ^ 192) (hn : n < 2 ^ 192) (h : bits root m = bits root n) : m = n := by
  rw [← mk_bits, ← mk_bits] at h
  exact bits_X_injective m n (mk_inj_aux P _ _ h 192 P_natDegree P_ne_zero (bits_X_degree m 192 hm) (bits_X_degree n 192 hn))

theorem φ_inj {a b : Gf} (h : φ a = φ b) : a = b := by
  unfold φ val at h
  have ha := toN_lt a
  have hb := toN_lt b
  exact toN_inj (bits_root_inj ha hb h)

theorem card_K : ∃ _ : Fintype K, Fintype.card K = 2 ^ 192 := by
  let pb := AdjoinRoot.powerBasis P_ne_zero
  have hdim : Module.finrank (ZMod 2) K = 192 := by
    rw [pb.finrank, AdjoinRoot.powerBasis_dim, P_natDegree]
  haveI : Module.Finite (ZMod 2) K := pb.finite
  haveI : Finite K := Module.finite_of_finite (ZMod 2)
  haveI : Fintype K := Fintype.ofFinite K
  refine ⟨inferInstance, ?_⟩
  rw [Module.card_eq_pow_finrank (K := ZMod 2) (V := K), hdim, ZMod.card]

theorem pow_card_sub_one (v : K) (hv : v ≠ 0) : v ^ (2 ^ 192 - 1) = 1 := by
  obtain ⟨_, hc⟩ := card_K
  rw [← hc]; exact FiniteField.pow_card_sub_one_eq_one v hv

theorem pow_card_K (v : K) : v ^ 2 ^ 192 = v := by
  obtain ⟨_, hc⟩ := card_K
  rw [← hc]; exact FiniteField.pow_card v

/-- `power_2_to_2_to_k` for every `k`, including those beyond the tables. -/
theorem φ_pow2 (z : Gf) (k : Nat) : φ (pow2To2ToK z k) = φ z ^ 2 ^ 2 ^ k := by
  unfold pow2To2ToK
  split
  · rename_i hk
    have hred : ∀ (v : K) (j : Nat), v ^ 2 ^ (192 * j) = v := by
      intro v j
      induction j with
      | zero => simp
      | succ j ih => rw [Nat.mul_succ, Nat.pow_add, pow_mul, ih, pow_card_K]
    have hmod : ∀ (v : K) (e : Nat), v ^ 2 ^ e = v ^ 2 ^ (e % 192) := by
      intro v e
      conv_lhs => rw [← Nat.div_add_mod e 192, Nat.pow_add, pow_mul, hred]
    have hm : ∀ k, 6 ≤ k → 2 ^ k % 192 = if k % 2 = 1 then 128 else 64 := by
      intro k hk
      induction k, hk using Nat.le_induction with
      | base => rfl
      | succ k hk ih =>
        rw [Nat.pow_succ, Nat.mul_mod, ih]
        rcases Nat.mod_two_eq_zero_or_one k with h | h
        · have : (k + 1) % 2 = 1 := by omega
          simp [h, this]
        · have : (k + 1) % 2 = 0 := by omega
          simp [h, this]
    rw [hmod (φ z) (2 ^ k), hm k (by omega)]
    simp only
    split
    · rw [φ_pow 6 (by omega), φ_pow 6 (by omega), ← pow_mul, ← Nat.pow_add]; norm_num
    · rw [φ_pow 6 (by omega)]; norm_num
  · rename_i hk
    exact φ_pow k (by omega) z

theorem φ_invert (z : Gf) : φ (invert z) = φ z ^ (2 ^ 192 - 2) := by
  unfold invert
  simp only [invLoop, φ_mul, φ_pow2]
  simp only [← pow_mul, ← pow_add, ← pow_succ, ← pow_succ', ← pow_two, mul_pow]
  congr 1

theorem invert_mul (z : Gf) (hz : z ≠ zero) : multiply (invert z) z = one := by
  apply φ_inj
  rw [φ_mul, φ_invert, φ_one, ← pow_succ]
  have hv : φ z ≠ 0 := fun h => hz (φ_inj (by rw [h, φ_zero]))
  exact pow_card_sub_one _ hv

theorem invert_zero : invert zero = zero := by
  apply φ_inj
  rw [φ_invert, φ_zero, zero_pow (by norm_num)]

theorem φ_inv (z : Gf) : φ (invert z) = (φ z)⁻¹ := by
  by_cases hz : z = zero
  · subst hz; rw [invert_zero, φ_zero, inv_zero]
  · have := congrArg φ (invert_mul z hz)
    rw [φ_mul, φ_one] at this
    exact eq_inv_of_mul_eq_one_left this

end Verif.Gf
