import Verif.Proofs.Vlq
import Verif.Model.Value

/-! # C05: bounds of box values and token amounts -/

namespace Verif

/-- Protocol bounds of a box value, written out. -/
def Spec.boxValueOk (v : Nat) : Prop := 10800 ≤ v ∧ v ≤ 9223372036854775807

/-- Protocol bounds of a token amount, written out. -/
def Spec.tokenAmountOk (v : Nat) : Prop := 1 ≤ v ∧ v ≤ 9223372036854775807

open Spec

/-- C05: construction succeeds exactly inside the bounds. -/
theorem C05_try_from_u64 (v r : Nat) : BoxValue.tryFromU64 v = some r ↔ r = v ∧ boxValueOk v := by
  unfold BoxValue.tryFromU64 BoxValue.withinBounds boxValueOk BoxValue.minRaw BoxValue.minValuePerBoxByte
    BoxValue.minBoxSizeBytes BoxValue.maxRaw
  simp only [Bool.and_eq_true, decide_eq_true_eq]
  split <;> simp_all <;> omega

/-- C05: for every `i64`. -/
theorem C05_try_from_i64 (v : Int) (hv : v < 2 ^ 63) (r : Nat) :
    BoxValue.tryFromI64 v = some r ↔ (r : Int) = v ∧ boxValueOk r := by
  unfold BoxValue.tryFromI64 boxValueOk BoxValue.minRaw BoxValue.minValuePerBoxByte BoxValue.minBoxSizeBytes
  split <;> simp_all <;> omega

/-- C05: the exact integer sum, and an error exactly when that is out of bounds. -/
theorem C05_checked_add (a b r : Nat) (ha : boxValueOk a) (hb : boxValueOk b) :
    BoxValue.checkedAdd a b = some r ↔ r = a + b ∧ boxValueOk (a + b) := by
  unfold BoxValue.checkedAdd BoxValue.maxRaw
  unfold boxValueOk at *
  split
  · split <;> simp <;> omega
  · simp; omega

theorem C05_checked_sub (a b r : Nat) (ha : boxValueOk a) (hb : boxValueOk b) :
    BoxValue.checkedSub a b = some r ↔ r + b = a ∧ boxValueOk r := by
  unfold BoxValue.checkedSub BoxValue.minRaw BoxValue.minValuePerBoxByte BoxValue.minBoxSizeBytes
  unfold boxValueOk at *
  split
  · split <;> simp <;> omega
  · simp; omega

theorem C05_checked_mul (a b r : Nat) (ha : boxValueOk a) (hb : boxValueOk b) :
    BoxValue.checkedMul a b = some r ↔ r = a * b ∧ boxValueOk (a * b) := by
  have h : a ≤ a * b := Nat.le_mul_of_pos_right a (by unfold boxValueOk at hb; omega)
  unfold BoxValue.checkedMul BoxValue.maxRaw
  unfold boxValueOk at *
  generalize a * b = c at *
  split
  · split <;> simp <;> omega
  · simp; omega

/-- C05 for `checked_mul_u32`; missing: the factor must not be zero (see `C05_mul_u32_zero_violates`). -/
theorem C05_checked_mul_u32_partial (a r : Nat) (b : BitVec 32) (ha : boxValueOk a) (hb : b ≠ 0#32) :
    BoxValue.checkedMulU32 a b = some r ↔ r = a * b.toNat ∧ boxValueOk (a * b.toNat) := by
  have hb' : b.toNat ≠ 0 := fun h => hb (BitVec.eq_of_toNat_eq (by simpa using h))
  have h : a ≤ a * b.toNat := Nat.le_mul_of_pos_right a (by omega)
  unfold BoxValue.checkedMulU32 BoxValue.maxRaw
  unfold boxValueOk at *
  generalize a * b.toNat = c at *
  split
  · split <;> simp <;> omega
  · simp; omega

/-- Finding: multiplying any box value by zero yields a `BoxValue` of zero. -/
theorem C05_mul_u32_zero_violates :
    ¬ ∀ (a r : Nat) (b : BitVec 32), boxValueOk a → BoxValue.checkedMulU32 a b = some r → boxValueOk r := by
  intro h
  have := h 1000000 0 0#32 (by unfold boxValueOk; omega) (by decide)
  unfold boxValueOk at this
  omega

/-- Finding: parsing a `BoxValue` from a string bypasses the bounds. -/
theorem C05_from_str_violates :
    (∃ r, BoxValue.fromStr 0 = some r ∧ ¬ boxValueOk r) ∧
    (∃ r, BoxValue.fromStr (2 ^ 64 - 1) = some r ∧ ¬ boxValueOk r) :=
  ⟨⟨0, by decide, by unfold boxValueOk; omega⟩, ⟨2 ^ 64 - 1, by decide, by unfold boxValueOk; omega⟩⟩

theorem checkedSumAux_iff (l : List Nat) : ∀ (acc r : Nat), acc ≤ 9223372036854775807 →
    (∀ v ∈ l, boxValueOk v) →
    (BoxValue.checkedSumAux acc l = some r ↔ r = acc + l.sum ∧ r ≤ 9223372036854775807) := by
  induction l with
  | nil => intro acc r hacc _; simp [BoxValue.checkedSumAux]; omega
  | cons v vs ih =>
    intro acc r hacc hall
    have hv := hall v (by simp)
    unfold boxValueOk at hv
    rw [BoxValue.checkedSumAux]
    unfold BoxValue.checkedAdd BoxValue.maxRaw
    have hlt : acc + v < 2 ^ 64 := by omega
    rw [if_pos hlt]
    by_cases hb : acc + v > 2 ^ 63 - 1
    · rw [if_pos hb]; simp [List.sum_cons]; omega
    · rw [if_neg hb]
      simp only [ih (acc + v) r (by omega) (fun w hw => hall w (by simp [hw])), List.sum_cons, Nat.add_assoc]

/-- C05: `checked_sum` returns the exact sum, exactly when it is a valid box value. -/
theorem C05_checked_sum (l : List Nat) (r : Nat) (hl : ∀ v ∈ l, boxValueOk v) :
    BoxValue.checkedSum l = some r ↔ r = l.sum ∧ boxValueOk l.sum := by
  have hpos : l = [] ∨ 10800 ≤ l.sum := by
    cases l with
    | nil => left; rfl
    | cons v vs =>
      right
      have := hl v (by simp)
      unfold boxValueOk at this
      simp only [List.sum_cons]; omega
  unfold BoxValue.checkedSum
  cases h : BoxValue.checkedSumAux 0 l with
  | none =>
    simp only [reduceCtorEq, false_iff, not_and]
    intro _ hok
    have := (checkedSumAux_iff l 0 l.sum (by omega) hl).2 (by unfold boxValueOk at hok; omega)
    rw [h] at this; exact absurd this (by simp)
  | some v =>
    have hv := (checkedSumAux_iff l 0 v (by omega) hl).1 h
    simp only [Nat.zero_add] at hv
    obtain ⟨rfl, hv2⟩ := hv
    by_cases h0 : l.sum = 0
    · simp [h0, boxValueOk]
    · simp only [h0, if_false, Option.some.injEq, boxValueOk]
      rcases hpos with rfl | hpos
      · simp at h0
      · constructor
        · rintro rfl; omega
        · rintro ⟨rfl, _⟩; rfl

/-- C05: writing and reading a box value. -/
theorem C05_box_value_roundtrip (v : Nat) (hv : boxValueOk v) (rest : Bytes) :
    BoxValue.parse (BoxValue.ser v ++ rest) = some (v, rest) := by
  unfold BoxValue.parse BoxValue.ser
  rw [Parser.bind_some (getU64_put _ _)]
  have h64 : v % 2 ^ 64 = v := Nat.mod_eq_of_lt (by unfold boxValueOk at hv; omega)
  rw [BitVec.toNat_ofNat, h64, (C05_try_from_u64 v v).2 ⟨rfl, hv⟩]
  rfl

/-- C05: whatever bytes are parsed, the value is inside the bounds. -/
theorem C05_parsed_in_bounds (s rest : Bytes) (v : Nat) (h : BoxValue.parse s = some (v, rest)) : boxValueOk v := by
  unfold BoxValue.parse at h
  rw [Parser.bind_eq_some] at h
  obtain ⟨w, s', _, h2⟩ := h
  cases hw : BoxValue.tryFromU64 w.toNat with
  | none => rw [hw] at h2; simp at h2
  | some r =>
    rw [hw] at h2
    simp only [Parser.ofOption_some, Option.some.injEq, Prod.mk.injEq] at h2
    have := (C05_try_from_u64 _ _).1 hw
    rw [← h2.1, this.1]; exact this.2

/-- Every box value a user can obtain by constructing, parsing and combining others.
Left out: `FromStr`, and `checked_mul_u32` with factor zero (see the two findings above). -/
inductive Obtainable : Nat → Prop where
  | new {v r} : BoxValue.tryFromU64 v = some r → Obtainable r
  | ofI64 {v : Int} {r} : v < 2 ^ 63 → BoxValue.tryFromI64 v = some r → Obtainable r
  | parsed {s rest r} : BoxValue.parse s = some (r, rest) → Obtainable r
  | add {a b r} : Obtainable a → Obtainable b → BoxValue.checkedAdd a b = some r → Obtainable r
  | sub {a b r} : Obtainable a → Obtainable b → BoxValue.checkedSub a b = some r → Obtainable r
  | mul {a b r} : Obtainable a → Obtainable b → BoxValue.checkedMul a b = some r → Obtainable r
  | mulU32 {a b r} : Obtainable a → b ≠ 0#32 → BoxValue.checkedMulU32 a b = some r → Obtainable r
  | sum {l r} : (∀ v ∈ l, Obtainable v) → BoxValue.checkedSum l = some r → Obtainable r

/-- C05: all sequences of operations stay inside the protocol bounds.  Missing with respect to the full
statement: `FromStr` and multiplication by zero, which leave the bounds. -/
theorem C05_obtainable_in_bounds_partial (v : Nat) (h : Obtainable v) : boxValueOk v := by
  induction h with
  | new h => have := (C05_try_from_u64 _ _).1 h; rw [this.1]; exact this.2
  | ofI64 hv h => exact ((C05_try_from_i64 _ hv _).1 h).2
  | parsed h => exact C05_parsed_in_bounds _ _ _ h
  | add _ _ h iha ihb => have := (C05_checked_add _ _ _ iha ihb).1 h; rw [this.1]; exact this.2
  | sub _ _ h iha ihb => exact ((C05_checked_sub _ _ _ iha ihb).1 h).2
  | mul _ _ h iha ihb => have := (C05_checked_mul _ _ _ iha ihb).1 h; rw [this.1]; exact this.2
  | mulU32 _ hb h iha => have := (C05_checked_mul_u32_partial _ _ _ iha hb).1 h; rw [this.1]; exact this.2
  | sum hl h ih => have := (C05_checked_sum _ _ ih).1 h; rw [this.1]; exact this.2

example : Obtainable 11000 :=
  .sub (a := 3000000) (b := 2989000) (.mulU32 (a := 1000000) (b := 3#32) (.new (v := 1000000) (by decide)) (by decide)
    (by decide)) (.new (v := 2989000) (by decide)) (by decide)

/-- C05, token amounts: construction. -/
theorem C05_token_try_from (v r : Nat) : TokenAmount.tryFromU64 v = some r ↔ r = v ∧ tokenAmountOk v := by
  unfold TokenAmount.tryFromU64 tokenAmountOk TokenAmount.minRaw TokenAmount.maxRaw
  split <;> simp_all <;> omega

theorem C05_token_checked_add (a b r : Nat) (ha : tokenAmountOk a) (hb : tokenAmountOk b) :
    TokenAmount.checkedAdd a b = some r ↔ r = a + b ∧ tokenAmountOk (a + b) := by
  unfold TokenAmount.checkedAdd TokenAmount.maxRaw
  unfold tokenAmountOk at *
  split
  · split <;> simp <;> omega
  · simp; omega

theorem C05_token_checked_sub (a b r : Nat) (ha : tokenAmountOk a) (hb : tokenAmountOk b) :
    TokenAmount.checkedSub a b = some r ↔ r + b = a ∧ tokenAmountOk r := by
  unfold TokenAmount.checkedSub TokenAmount.minRaw
  unfold tokenAmountOk at *
  split
  · split <;> simp <;> omega
  · simp; omega

example : TokenAmount.checkedAdd 9223372036854775806 1 = some 9223372036854775807 := by decide
example : TokenAmount.checkedAdd 9223372036854775807 1 = none := by decide

end Verif
