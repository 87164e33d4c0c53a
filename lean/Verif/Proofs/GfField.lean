import Verif.Proofs.GfPow
import Mathlib.FieldTheory.Finite.Basic
import Mathlib.Dynamics.PeriodicPts.Defs
import Mathlib.RingTheory.PowerBasis
import Mathlib.Tactic.ComputeDegree

set_option linter.unusedSimpArgs false
set_option linter.unusedVariables false

/-! The pentanomial is irreducible, so the elements form a field. -/

namespace Verif.Gf
open Polynomial

/-- The reduction polynomial. -/
noncomputable def P : (ZMod 2)[X] := X ^ 192 + X ^ 7 + X ^ 2 + X + 1

theorem P_natDegree : P.natDegree = 192 := by unfold P; compute_degree!
theorem P_monic : P.Monic := by unfold P; monicity!
theorem P_ne_zero : P ≠ 0 := P_monic.ne_zero

theorem bits_135 {R : Type*} [CommRing R] (x : R) : bits x 135 = x ^ 7 + x ^ 2 + x + 1 := by
  have b2 : bits x 2 = x := by rw [bits_eq]; norm_num
  have b4 : bits x 4 = x ^ 2 := by rw [bits_eq]; norm_num [b2]; ring
  have b8 : bits x 8 = x ^ 3 := by rw [bits_eq]; norm_num [b4]; ring
  have b16 : bits x 16 = x ^ 4 := by rw [bits_eq]; norm_num [b8]; ring
  have b33 : bits x 33 = x ^ 5 + 1 := by rw [bits_eq]; norm_num [b16]; ring
  have b67 : bits x 67 = x ^ 6 + x + 1 := by rw [bits_eq]; norm_num [b33]; ring
  rw [bits_eq]; norm_num [b67]; ring

theorem relation {S : Type*} [CommRing S] [CharP S 2] (y : S) (h : y ^ 192 + y ^ 7 + y ^ 2 + y + 1 = 0) :
    y ^ 192 = bits y 135 := by
  rw [bits_135]
  have : y ^ 192 = -(y ^ 7 + y ^ 2 + y + 1) := by linear_combination h
  rw [this, CharTwo.neg_eq]

/-- The element `x`. -/
def gen : Gf := ⟨2#64, 0#64, 0#64⟩

/-- The element 1. -/
def one : Gf := ⟨1#64, 0#64, 0#64⟩

theorem val_gen {S : Type*} [CommRing S] (y : S) : val y gen = y := by
  have : toN gen = 2 := rfl
  unfold val; rw [this, bits_eq]; norm_num

theorem val_one {S : Type*} [CommRing S] (y : S) : val y one = 1 := by
  have : toN one = 1 := rfl
  unfold val; rw [this, bits_one]

def ofN (n : Nat) : Gf := ⟨BitVec.ofNat 64 n, BitVec.ofNat 64 (n / 2 ^ 64), BitVec.ofNat 64 (n / 2 ^ 128)⟩

def cert64 : Gf := ofN 2283902476279379784793961263453781379197296976019429623223
def cert96 : Gf := ofN 1899825402806994870916199302676313714709287105153539709081

def gen64 : Gf := ofN (1068547072797051882294505503071689647997167229376823760 ^^^ 2)
def gen96 : Gf := ofN (4290557293353773064350625900128718346652496588784717698368 ^^^ 2)

theorem gen64_eq : powLin 6 gen = gen64 := by decide +kernel
theorem gen96_eq : powLin 5 gen64 = gen96 := by decide +kernel
theorem gen192_eq : powLin 6 (powLin 6 gen64) = gen := by decide +kernel
theorem cert64_eq : multiply (add gen64 gen) cert64 = one := by decide +kernel
theorem cert96_eq : multiply (add gen96 gen) cert96 = one := by decide +kernel

theorem P_irreducible : Irreducible P := by
  haveI : Fact (Nat.Prime 2) := ⟨Nat.prime_two⟩
  obtain ⟨Q, hQ, hdvd⟩ := WfDvdMonoid.exists_irreducible_factor (a := P)
    (Polynomial.not_isUnit_of_natDegree_pos P (by rw [P_natDegree]; norm_num)) P_ne_zero
  haveI : Fact (Irreducible Q) := ⟨hQ⟩
  have hQ0 : Q ≠ 0 := hQ.ne_zero
  let L := AdjoinRoot Q
  let y : L := AdjoinRoot.root Q
  haveI : CharP L 2 := charP_of_injective_algebraMap (algebraMap (ZMod 2) L).injective 2
  have hy : y ^ 192 = bits y 135 := by
    apply relation
    have h1 : AdjoinRoot.mk Q P = 0 := AdjoinRoot.mk_eq_zero.2 hdvd
    unfold P at h1
    simpa using h1
  have p64 : y ^ 2 ^ 64 = val y gen64 := by
    rw [← gen64_eq, val_powLin y hy 6 (by omega), val_gen]
    norm_num
  have p96 : y ^ 2 ^ 96 = val y gen96 := by
    rw [← gen96_eq, val_powLin y hy 5 (by omega), ← p64, ← pow_mul, ← pow_add]
    norm_num
  have p192 : y ^ 2 ^ 192 = y := by
    have := congrArg (val y) gen192_eq
    rw [val_gen, val_powLin y hy 6 (by omega), val_powLin y hy 6 (by omega), ← p64, ← pow_mul, ← pow_mul, ← pow_add,
      ← pow_add] at this
    exact this
  have n64 : y ^ 2 ^ 64 ≠ y := by
    intro h
    have := congrArg (val y) cert64_eq
    rw [val_multiply y hy, val_add, ← p64, h, val_gen, CharTwo.add_self_eq_zero, zero_mul, val_one] at this
    exact zero_ne_one this
  have n96 : y ^ 2 ^ 96 ≠ y := by
    intro h
    have := congrArg (val y) cert96_eq
    rw [val_multiply y hy, val_add, ← p96, h, val_gen, CharTwo.add_self_eq_zero, zero_mul, val_one] at this
    exact zero_ne_one this
  -- the field `L` has `2 ^ d` elements
  let pb := AdjoinRoot.powerBasis hQ0
  have hdim : Module.finrank (ZMod 2) L = Q.natDegree := by
    rw [pb.finrank, AdjoinRoot.powerBasis_dim]
  haveI : Module.Finite (ZMod 2) L := pb.finite
  haveI : Finite L := Module.finite_of_finite (ZMod 2)
  haveI : Fintype L := Fintype.ofFinite L
  have hcard : Fintype.card L = 2 ^ Q.natDegree := by
    rw [Module.card_eq_pow_finrank (K := ZMod 2) (V := L), hdim, ZMod.card]
  have pd : y ^ 2 ^ Q.natDegree = y := by rw [← hcard]; exact FiniteField.pow_card y
  let f : L → L := fun z => z ^ 2
  have hf : ∀ n (z : L), f^[n] z = z ^ 2 ^ n := by
    intro n
    induction n with
    | zero => intro z; simp
    | succ n ih => intro z; rw [Function.iterate_succ_apply, ih, ← pow_mul, Nat.pow_succ, Nat.mul_comm]
  have per : ∀ n, Function.IsPeriodicPt f n y ↔ y ^ 2 ^ n = y := by
    intro n; unfold Function.IsPeriodicPt Function.IsFixedPt; rw [hf]
  have hg := ((per _).2 pd).gcd ((per _).2 p192)
  have hdiv : 192 ∣ Q.natDegree := by
    by_contra hnd
    have hgd : Nat.gcd Q.natDegree 192 ∣ 192 := Nat.gcd_dvd_right _ _
    have hgne : Nat.gcd Q.natDegree 192 ≠ 192 := fun h => hnd (h ▸ Nat.gcd_dvd_left _ _)
    have hcases : ∀ g, g ∣ 192 → g ≠ 192 → g ∣ 64 ∨ g ∣ 96 := by
      have h : ∀ g, g < 193 → g ∣ 192 → g ≠ 192 → g ∣ 64 ∨ g ∣ 96 := by decide +kernel
      exact fun g hg hne => h g (Nat.lt_succ_of_le (Nat.le_of_dvd (by norm_num) hg)) hg hne
    rcases hcases _ hgd hgne with h | h
    · exact n64 ((per _).1 (hg.trans_dvd h))
    · exact n96 ((per _).1 (hg.trans_dvd h))
  have hle : Q.natDegree ≤ 192 := P_natDegree ▸ Polynomial.natDegree_le_of_dvd hdvd P_ne_zero
  have hpos : 0 < Q.natDegree := hQ.natDegree_pos
  have hdeg : Q.natDegree = 192 := by
    obtain ⟨c, hc⟩ := hdiv
    omega
  obtain ⟨c, hc⟩ := hdvd
  have hc0 : c ≠ 0 := by rintro rfl; exact P_ne_zero (by rw [hc, mul_zero])
  have hcd : c.natDegree = 0 := by
    have := Polynomial.natDegree_mul hQ0 hc0
    rw [← hc, P_natDegree, hdeg] at this
    omega
  have hcu : IsUnit c := by
    rw [Polynomial.isUnit_iff_degree_eq_zero, Polynomial.degree_eq_natDegree hc0, hcd]; rfl
  rw [hc]
  exact (irreducible_mul_isUnit hcu).2 hQ

end Verif.Gf
