import Verif.Model.ScalarInt
import Verif.Props.SecretKey

/-! # C99: scalars and 256-bit integers stand for the same numbers -/

set_option linter.unusedSimpArgs false
set_option linter.unusedVariables false

namespace Verif
open Sigma
variable {G : Type} {q : Nat}

theorem sumShift_eq (l : Bytes) (k : Nat) (h : l.length = k) :
    (l.mapIdx fun i w => w.toNat <<< ((k - 1 - i) * 8)).sum = Sigma.beNat l := by
  induction l using List.reverseRecOn generalizing k with
  | nil => rfl
  | append_singleton l b ih =>
    subst h
    have e : (l.mapIdx fun i w => w.toNat <<< (((l ++ [b]).length - 1 - i) * 8)) =
        (l.mapIdx fun i w => w.toNat <<< ((l.length - 1 - i) * 8)).map (· * 256) := by
      apply List.ext_getElem
      · simp
      · intro i h1 h2
        simp only [List.getElem_mapIdx, List.getElem_map]
        have hi : i < l.length := by simpa using h1
        have hs : ((l ++ [b]).length - 1 - i) * 8 = (l.length - 1 - i) * 8 + 8 := by
          rw [List.length_append, List.length_singleton]; omega
        have hx : ∀ x : Nat, x <<< (((l ++ [b]).length - 1 - i) * 8) = x <<< ((l.length - 1 - i) * 8) * 256 := fun x => by
          rw [hs, Nat.shiftLeft_add, Nat.shiftLeft_eq _ 8]
        exact hx _
    rw [List.mapIdx_append, List.sum_append, Sigma.beNat_append, e, List.sum_map_mul_right, List.map_id', ih _ rfl]
    simp [Sigma.beNat]

theorem scalarToBigInt_eq [NeZero q] (hq : q ≤ 2 ^ 256) (s : ZMod q) : scalarToBigInt s = bigInt256OfNat s.val := by
  unfold scalarToBigInt
  have := sumShift_eq (scalarBytes s) 32 (scalarBytes_length s)
  rw [show (32 - 1 : Nat) = 31 from rfl] at this
  rw [this]
  unfold scalarBytes
  rw [Sigma.beNat_natBe 32 _ (by
    have : (256 : Nat) ^ 32 = 2 ^ 256 := by decide
    have := ZMod.val_lt s
    omega)]

theorem natToBytes32_eq (n : Nat) : natToBytes32 n = Sigma.natBe 32 n := by
  rw [← keyOfNat_bytes]
  unfold natToBytes32
  apply List.map_congr_left
  intro i _
  apply BitVec.eq_of_toNat_eq
  rw [BitVec.toNat_ofNat, BitVec.toNat_ofNat, show (255 : Nat) = 2 ^ 8 - 1 from rfl, Nat.and_two_pow_sub_one_eq_mod, Nat.mod_mod]

/-- C99: a scalar gives an integer exactly if it is at most 2^255 - 1, and then the integer is the scalar. -/
theorem C99_to_int [NeZero q] (hq : q ≤ 2 ^ 256) (s : ZMod q) (n : Int) :
    scalarToBigInt s = some n ↔ n = s.val ∧ n ≤ 2 ^ 255 - 1 := by
  rw [scalarToBigInt_eq hq]
  unfold bigInt256OfNat
  have e : (2 ^ 255 - 1 : Int).toNat = 2 ^ 255 - 1 := by decide
  rw [e]
  split
  · simp only [reduceCtorEq, false_iff]; omega
  · simp only [Option.some.injEq]; omega

/-- C99: an integer of 256 bits gives a scalar exactly if it is not negative and below the group order, and then the scalar is the
integer. -/
theorem C99_of_int [NeZero q] (n : Int) (hn : bigInt256 n = some n) (s : ZMod q) :
    bigIntToScalar n = some s ↔ 0 ≤ n ∧ n < q ∧ (s.val : Int) = n := by
  have hr : n ≤ 2 ^ 255 - 1 := by
    unfold bigInt256 at hn
    split at hn
    · rename_i h; exact h.2
    · cases hn
  unfold bigIntToScalar
  split
  · simp only [reduceCtorEq, false_iff]; omega
  · rename_i h0
    obtain ⟨m, rfl⟩ := Int.eq_ofNat_of_zero_le (Int.not_lt.1 h0)
    unfold keyOfBytes
    rw [natToBytes32_eq, Int.toNat_natCast, Sigma.beNat_natBe 32 m (by
      have : (256 : Nat) ^ 32 = 2 ^ 256 := by decide
      omega)]
    split
    · rename_i hm
      rw [Option.some.injEq]
      constructor
      · rintro rfl; exact ⟨by omega, by omega, by rw [ZMod.val_natCast_of_lt hm]⟩
      · rintro ⟨_, _, h⟩
        have h : s.val = m := by omega
        rw [← h, ZMod.natCast_zmod_val]
    · simp only [reduceCtorEq, false_iff]; omega

/-- C99: the two conversions undo each other. -/
theorem C99_inverse [NeZero q] (hq : q ≤ 2 ^ 256) (n : Int) (hn : bigInt256 n = some n) (s : ZMod q) :
    bigIntToScalar n = some s ↔ scalarToBigInt s = some n := by
  have hr : n ≤ 2 ^ 255 - 1 := by
    unfold bigInt256 at hn
    split at hn
    · rename_i h; exact h.2
    · cases hn
  rw [C99_of_int n hn, C99_to_int hq]
  have := ZMod.val_lt s
  omega

instance : NeZero secpOrder := ⟨by decide⟩

/-- C99: in the group of the chain all integers that are not negative have a scalar; the scalars without an integer are those from 2^255. -/
theorem C99_secp (n : Int) (hn : bigInt256 n = some n) (s : ZMod secpOrder) :
    ((bigIntToScalar n : Option (ZMod secpOrder)).isSome ↔ 0 ≤ n) ∧ (scalarToBigInt s = none ↔ 2 ^ 255 ≤ s.val) := by
  have hr : n ≤ 2 ^ 255 - 1 := by
    unfold bigInt256 at hn
    split at hn
    · rename_i h; exact h.2
    · cases hn
  have hord : 2 ^ 255 ≤ secpOrder ∧ secpOrder ≤ 2 ^ 256 := by decide
  constructor
  · rw [Option.isSome_iff_exists]
    constructor
    · rintro ⟨s, h⟩; exact ((C99_of_int n hn s).1 h).1
    · intro h
      obtain ⟨m, rfl⟩ := Int.eq_ofNat_of_zero_le h
      have hm : m < secpOrder := by omega
      exact ⟨(m : ZMod secpOrder), (C99_of_int _ hn _).2 ⟨h, by omega, by rw [ZMod.val_natCast_of_lt hm]⟩⟩
  · rw [scalarToBigInt_eq hord.2]
    unfold bigInt256OfNat
    have e : (2 ^ 255 - 1 : Int).toNat = 2 ^ 255 - 1 := by decide
    rw [e]
    split
    · simp only [true_iff]; omega
    · simp only [reduceCtorEq, false_iff]; omega

/-- C99: raising a point to an integer adds the point to itself that many times; a negative integer is an error. -/
theorem C99_exp [AddCommGroup G] [DecidableEq G] [Module (ZMod secpOrder) G] (g : G) (n : Int) (hn : bigInt256 n = some n) :
    evalExp secpOrder g n = if 0 ≤ n then .ok (n.toNat • g) else .err := by
  unfold evalExp
  by_cases h : 0 ≤ n
  · rw [if_pos h]
    obtain ⟨s, hs⟩ := Option.isSome_iff_exists.1 ((C99_secp n hn 0).1.2 h)
    rw [hs]
    obtain ⟨_, _, hv⟩ := (C99_of_int n hn s).1 hs
    have hv' : n.toNat = s.val := by omega
    have : (s.val : ZMod secpOrder) = s := ZMod.natCast_zmod_val s
    unfold expPoint
    rw [hv', ← Nat.cast_smul_eq_nsmul (ZMod secpOrder), this]
    by_cases hg : g = 0
    · subst hg; simp
    · simp [hg]
  · rw [if_neg h]
    have : (bigIntToScalar n : Option (ZMod secpOrder)) = none := by
      unfold bigIntToScalar; rw [if_pos (by omega)]
    rw [this]

/-! ## Cases -/

/-- Integers and scalars of the chain's group. -/
example : bigInt256 (2 ^ 255 - 1) = some (2 ^ 255 - 1) ∧ bigInt256 (-5) = some (-5) ∧
    (bigIntToScalar (2 ^ 255 - 1) : Option (ZMod secpOrder)) = some ((2 ^ 255 - 1 : Nat) : ZMod secpOrder) ∧
    (bigIntToScalar (-5) : Option (ZMod secpOrder)) = none := by
  refine ⟨by decide, by decide, ?_, by rfl⟩
  refine (C99_of_int _ (by decide) _).2 ⟨by decide, by decide, ?_⟩
  rw [ZMod.val_natCast_of_lt (by decide)]
  decide

/-- In a small group the bound is the order. -/
example : (bigIntToScalar 6 : Option (ZMod 7)) = some 6 ∧ (bigIntToScalar 7 : Option (ZMod 7)) = none ∧
    scalarToBigInt (6 : ZMod 7) = some 6 := by
  decide +kernel

/-- The square of the generator. -/
example : evalExp secpOrder (1 : ZMod secpOrder) 2 = .ok (2 • 1) := C99_exp _ 2 (by decide)

/-- C99: a scalar of the chain's group, e.g. a secret key, need not have an integer: the largest has none. -/
theorem C99_no_int : scalarToBigInt ((secpOrder - 1 : Nat) : ZMod secpOrder) = none := by
  refine (C99_secp 0 (by decide) _).2.2 ?_
  rw [ZMod.val_natCast_of_lt (by decide)]
  decide

end Verif
