import Verif.Model.WasmNum
import Verif.Spec.WasmNum
import Verif.Proofs.WasmNum
import Verif.Proofs.JsonForm

/-!
# C114: numbers and collections pass through JavaScript unchanged
-/

namespace Verif
open Verif.Spec Verif.Wasm

/-- The text of a number reads back as the number, and a text is read exactly if it is the decimal text of a 64-bit integer, as that
integer. -/
theorem C114_text (s : Text) (v : BitVec 64) :
    i64FromStr (i64ToStr v) = .ok v ∧ i64FromStr s ≠ .panic ∧ (i64FromStr s = .ok v ↔ LongText s v.toInt) := by
  have key : ∀ (s : Text) (v : BitVec 64), i64FromStr s = .ok v ↔ LongText s v.toInt := by
    intro s v
    rw [← parseI64_iff]
    unfold i64FromStr
    cases JsConv.parseI64 s <;> simp
  refine ⟨(key _ _).2 (longText_bigText v), ?_, key s v⟩
  unfold i64FromStr
  cases JsConv.parseI64 s <;> simp

example : i64FromStr "-9223372036854775808".toList = .ok (BitVec.ofInt 64 (-(2 ^ 63))) ∧ i64FromStr "9223372036854775808".toList = .err ∧
    i64FromStr "+7".toList = .ok 7 := by decide +kernel

/-- The sum is exact, and refused exactly if it is outside the 64 bits. -/
theorem C114_add (a b : BitVec 64) :
    i64CheckedAdd a b ≠ .panic ∧ ∀ c, i64CheckedAdd a b = .ok c ↔ c.toInt = a.toInt + b.toInt := by
  have ha1 := BitVec.toInt_lt (x := a)
  have ha2 := BitVec.le_toInt (x := a)
  have hb1 := BitVec.toInt_lt (x := b)
  have hb2 := BitVec.le_toInt (x := b)
  unfold i64CheckedAdd
  by_cases h : BitVec.saddOverflow a b = true
  · rw [if_pos h]
    refine ⟨by simp, fun c => ?_⟩
    have hc1 := BitVec.toInt_lt (x := c)
    have hc2 := BitVec.le_toInt (x := c)
    simp only [BitVec.saddOverflow, Bool.or_eq_true, decide_eq_true_eq] at h
    simp only [reduceCtorEq, false_iff]
    omega
  · rw [if_neg h]
    refine ⟨by simp, fun c => ?_⟩
    have e := BitVec.toInt_add_of_not_saddOverflow (x := a) (y := b) (by simpa using h)
    rw [← e]
    constructor
    · intro h; cases h; rfl
    · intro h; rw [BitVec.eq_of_toInt_eq h]

example : i64CheckedAdd (BitVec.ofInt 64 (2 ^ 63 - 1)) 1 = .err ∧ i64CheckedAdd (BitVec.ofInt 64 (2 ^ 63 - 1)) (BitVec.ofInt 64 (-1)) = .ok (BitVec.ofInt 64 (2 ^ 63 - 2)) := by
  decide +kernel

/-- A box value is made of a number exactly if it is at least 10800 (so never of a negative one), as that number, which `as_i64` gives
back. -/
theorem C114_box_value (v : BitVec 64) :
    boxValueFromI64 v ≠ .panic ∧ (∀ a, boxValueFromI64 v = .ok a ↔ 10800 ≤ v.toInt ∧ (a : Int) = v.toInt) ∧
    (∀ a, boxValueFromI64 v = .ok a → boxValueAsI64 a = v) := by
  have hn := v.isLt
  have hi : v.toInt = if v.toNat < 2 ^ 63 then (v.toNat : Int) else v.toNat - 2 ^ 64 := by
    rw [BitVec.toInt_eq_toNat_cond]; split <;> split <;> omega
  have key : boxValueFromI64 v = if 10800 ≤ v.toNat ∧ v.toNat ≤ 2 ^ 63 - 1 then .ok v.toNat else .err := by
    unfold boxValueFromI64 BoxValue.tryFromU64 BoxValue.withinBounds BoxValue.minRaw BoxValue.maxRaw BoxValue.minValuePerBoxByte
      BoxValue.minBoxSizeBytes
    by_cases h1 : 10800 ≤ v.toNat <;> by_cases h2 : v.toNat ≤ 9223372036854775807 <;> simp [h1, h2]
  rw [key]
  split
  · rename_i h
    rw [if_pos (by omega)] at hi
    refine ⟨by simp, fun a => ?_, fun a ha => ?_⟩
    · simp only [Outcome.ok.injEq]; omega
    · cases ha; simp [boxValueAsI64]
  · rename_i h
    refine ⟨by simp, fun a => ?_, fun a ha => by cases ha⟩
    simp only [reduceCtorEq, false_iff]
    split at hi <;> omega

example : boxValueFromI64 10800 = .ok 10800 ∧ boxValueFromI64 10799 = .err ∧ boxValueFromI64 (BitVec.ofInt 64 (-10800)) = .err := by
  decide +kernel

/-- The same of token amounts, from 1 on. -/
theorem C114_token_amount (v : BitVec 64) :
    tokenAmountFromI64 v ≠ .panic ∧ (∀ a, tokenAmountFromI64 v = .ok a ↔ 1 ≤ v.toInt ∧ (a : Int) = v.toInt) ∧
    (∀ a, tokenAmountFromI64 v = .ok a → tokenAmountAsI64 a = v) := by
  have hn := v.isLt
  have hi : v.toInt = if v.toNat < 2 ^ 63 then (v.toNat : Int) else v.toNat - 2 ^ 64 := by
    rw [BitVec.toInt_eq_toNat_cond]; split <;> split <;> omega
  have key : tokenAmountFromI64 v = if 1 ≤ v.toNat ∧ v.toNat ≤ 2 ^ 63 - 1 then .ok v.toNat else .err := by
    unfold tokenAmountFromI64 TokenAmount.tryFromU64 TokenAmount.minRaw TokenAmount.maxRaw
    by_cases h : 1 ≤ v.toNat ∧ v.toNat ≤ 2 ^ 63 - 1
    · rw [if_pos h, if_pos h]
    · rw [if_neg h, if_neg h]
  rw [key]
  split
  · rename_i h
    rw [if_pos (by omega)] at hi
    refine ⟨by simp, fun a => ?_, fun a ha => ?_⟩
    · simp only [Outcome.ok.injEq]; omega
    · cases ha; simp [tokenAmountAsI64]
  · rename_i h
    refine ⟨by simp, fun a => ?_, fun a ha => by cases ha⟩
    simp only [reduceCtorEq, false_iff]
    split at hi <;> omega

example : tokenAmountFromI64 1 = .ok 1 ∧ tokenAmountFromI64 0 = .err ∧ tokenAmountFromI64 (BitVec.ofInt 64 (-1)) = .err := by
  decide +kernel

/-- The eight bytes of an amount have its value, the highest first. -/
theorem C114_bytes (a : Nat) (h : a < 2 ^ 64) :
    (amountToBytes a).length = 8 ∧ (amountToBytes a).foldl (fun s b => s * 256 + b.toNat) 0 = a := by
  refine ⟨by simp [amountToBytes], ?_⟩
  have e : List.range 8 = [0, 1, 2, 3, 4, 5, 6, 7] := by decide
  simp only [amountToBytes, e, List.map_cons, List.map_nil, List.foldl_cons, List.foldl_nil, BitVec.toNat_ofNat]
  norm_num
  omega

example : amountToBytes 10800 = [0, 0, 0, 0, 0, 0, 0x2a, 0x30] := by decide +kernel

/-- The number made of a 64-bit integer is the nearest whole double, the even one of two; it is the integer itself up to 2^53 in size.  What is missing for
the full claim: beyond, it may be another integer (`C114_number_violates`). -/
theorem C114_number_partial (v : BitVec 64) :
    NearestDouble (i64AsNum v) v.toInt ∧ (v.toInt.natAbs ≤ 2 ^ 53 → NumIs (i64AsNum v) v.toInt) := by
  refine ⟨asNum_nearest v, fun h => ?_⟩
  obtain ⟨x, h1, _, h3, _⟩ := asNum_nearest v
  have := h3 v.toInt ⟨v.toInt, 0, by omega, by omega, by omega, by simp⟩
  have hx : x = v.toInt := by omega
  rwa [← hx]

example : NumIs (i64AsNum (BitVec.ofInt 64 (-(2 ^ 53)))) (-(2 ^ 53)) ∧ NumIs (i64AsNum (BitVec.ofInt 64 (2 ^ 53 + 3))) (2 ^ 53 + 4) := by
  constructor <;> (unfold i64AsNum NumIs; decide +kernel)

/-- Two different amounts become the same JavaScript number. -/
theorem C114_number_violates : ∃ v w : BitVec 64, v ≠ w ∧ ∃ x, NumIs (i64AsNum v) x ∧ NumIs (i64AsNum w) x := by
  refine ⟨BitVec.ofInt 64 (2 ^ 53), BitVec.ofInt 64 (2 ^ 53 + 1), by decide, 2 ^ 53, ?_, ?_⟩ <;>
    (unfold i64AsNum NumIs; decide +kernel)

/-- An array of Longs given to JavaScript as texts comes back unchanged, and an array is read item by item, refused if one is. -/
theorem C114_longs (S : Text → Option (BitVec 64)) (N : Js → Option (BitVec 64)) (hS : ∀ v : BitVec 64, S (toString v.toInt).toList = some v)
    (l : List (BitVec 64)) :
    longsFromJs S N (longsToJs l) = .ok l ∧ (longsToJs l).length = l.length ∧
    ∀ (i : Nat) (h : i < l.length), (longsToJs l)[i]? = some (.str (toString l[i].toInt).toList) := by
  refine ⟨?_, by simp [longsToJs], fun i h => ?_⟩
  · induction l with
    | nil => rfl
    | cons v l ih =>
      have hv := hS v
      rw [← bigText_eq] at hv
      simp only [longsToJs, List.map_cons, longsFromJs, longFromJs, i64ToStr, hv]
      simp only [longsToJs, i64ToStr] at ih
      rw [ih]
  · simp [longsToJs, i64ToStr, bigText_eq, h]

/-- A reader of texts as required. -/
example : ∃ S : Text → Option (BitVec 64), ∀ v : BitVec 64, S (toString v.toInt).toList = some v :=
  ⟨JsConv.parseI64, fun v => by
    rw [← bigText_eq]
    exact (parseI64_iff _ _).2 (longText_bigText v)⟩

/-- An array is read exactly if each of its items is, in order. -/
theorem C114_longs_read (S : Text → Option (BitVec 64)) (N : Js → Option (BitVec 64)) (js : List Js) (l : List (BitVec 64)) :
    longsFromJs S N js ≠ .panic ∧
    (longsFromJs S N js = .ok l ↔
      List.Forall₂ (fun j v => (∃ s, j = .str s ∧ S s = some v) ∨ ((∀ s, j ≠ .str s) ∧ N j = some v)) js l) := by
  induction js generalizing l with
  | nil => cases l <;> simp [longsFromJs]
  | cons j js ih =>
    have hj : ∀ o : Option (BitVec 64), longFromJs S N j = o →
        ∀ v, ((∃ s, j = .str s ∧ S s = some v) ∨ ((∀ s, j ≠ .str s) ∧ N j = some v)) ↔ o = some v := by
      rintro o rfl v
      cases j <;> simp [longFromJs]
    unfold longsFromJs
    generalize hm : longFromJs S N j = o
    have hj := hj o hm
    cases o with
    | none =>
      refine ⟨by simp, ?_⟩
      simp only [reduceCtorEq, false_iff]
      intro h
      cases h with
      | cons h1 _ => exact absurd ((hj _).1 h1) (by simp)
    | some v =>
      cases hr : longsFromJs S N js with
      | ok vs =>
        refine ⟨by simp, ?_⟩
        simp only [Outcome.ok.injEq]
        constructor
        · rintro rfl
          exact .cons ((hj v).2 rfl) ((ih vs).2.1 hr)
        · intro h
          cases h with
          | cons h1 h2 =>
            have h3 := (hj _).1 h1
            have h4 := (ih _).2.2 h2
            rw [hr] at h4
            cases h4
            cases h3
            rfl
      | err =>
        refine ⟨by simp, ?_⟩
        simp only [reduceCtorEq, false_iff]
        intro h
        cases h with
        | cons _ h2 =>
          have h4 := (ih _).2.2 h2
          rw [hr] at h4
          cases h4
      | panic => exact absurd hr (ih []).1

example : longsFromJs JsConv.parseI64 (fun _ => none) [.str ['7'], .str ['-', '1']] = .ok [7, BitVec.ofInt 64 (-1)] ∧
    longsFromJs JsConv.parseI64 (fun _ => none) [.str ['7'], .other] = .err := by decide +kernel

/-- Tokens: the element at the index, an error beyond the end; an added one is the last. -/
theorem C114_tokens {α : Type} (l : List α) (a : α) (i : Nat) :
    (∀ h : i < l.length, tokensGet l i = .ok l[i]) ∧ (l.length ≤ i → tokensGet l i = .err) ∧
    tokensGet (collAdd l a) l.length = .ok a ∧ (i < l.length → tokensGet (collAdd l a) i = tokensGet l i) ∧
    (collAdd l a).length = l.length + 1 := by
  refine ⟨fun h => by simp [tokensGet, h], fun h => by simp [tokensGet, h], by simp [tokensGet, collAdd], fun h => ?_, by simp [collAdd]⟩
  simp [tokensGet, collAdd, List.getElem?_append_left h]

example : tokensGet [5, 6] 1 = .ok 6 ∧ tokensGet [5, 6] 2 = .err ∧ tokensGet (collAdd [5, 6] 7) 2 = .ok 7 := by decide

/-- The other collections give the element at an index within them.  What is missing for the full claim: beyond the end they stop the
program (`C114_get_violates`). -/
theorem C114_get_partial {α : Type} (l : List α) (a : α) (i : Nat) (h : i < l.length) :
    collGet l i = .ok l[i] ∧ collGet (collAdd l a) i = .ok l[i] ∧ collGet (collAdd l a) l.length = .ok a := by
  refine ⟨by simp [collGet, h], ?_, by simp [collGet, collAdd]⟩
  simp [collGet, collAdd, List.getElem?_append_left h, h]

example : collGet [5, 6] 1 = .ok 6 := by decide

/-- An index beyond the end stops the program, whatever the collection. -/
theorem C114_get_violates {α : Type} (l : List α) : ∃ i, collGet l i = .panic :=
  ⟨l.length, by simp [collGet]⟩

/-- A state context is made of exactly ten headers, in order. -/
theorem C114_headers {α : Type} (l r : List α) :
    headersFrom l ≠ .panic ∧ (headersFrom l = .ok r ↔ l.length = 10 ∧ r = l) := by
  unfold headersFrom
  by_cases h : l.length = 10
  · simp [h, eq_comm]
  · simp [h]

example : headersFrom (List.replicate 10 ()) = .ok (List.replicate 10 ()) ∧ headersFrom (List.replicate 9 ()) = .err ∧
    headersFrom (List.replicate 11 ()) = .err := by decide

end Verif
