import Verif.Proofs.GfSpec

set_option linter.unusedVariables false

/-! # C18–C20: arithmetic of GF(2^192) and its polynomials -/

namespace Verif
open Verif.Gf Verif.Spec Polynomial

/-! ## C18 — multiplication -/

/-- C18: the product is the product of the two polynomials, reduced modulo `x^192 + x^7 + x^2 + x + 1`. -/
theorem C18_multiply (a b : Gf.Gf) : gfPoly (multiply a b) = (gfPoly a * gfPoly b) %ₘ gfModulus := gfPoly_mul a b

/-- The bits determine the polynomial and conversely: `C18_multiply` fixes every bit of the product. -/
theorem C18_faithful (a b : Gf.Gf) : gfPoly a = gfPoly b ↔ a = b := ⟨gfPoly_inj, fun h => h ▸ rfl⟩

/-- C18: addition is addition of polynomials. -/
theorem C18_add (a b : Gf.Gf) : gfPoly (add a b) = gfPoly a + gfPoly b := gfPoly_add a b

/-- C18: the modulus is irreducible, so the quotient is a field. -/
theorem C18_modulus_irreducible : Irreducible gfModulus := by rw [gfModulus_eq]; exact P_irreducible

/-- C18: `mul_by_i8` is `multiply` by the byte read as an element. -/
theorem C18_mul_by_i8 (a : Gf.Gf) (b : Byte) : mulByI8 a b = multiply a (gfByte b) := mulByI8_eq a b

theorem C18_comm (a b : Gf.Gf) : multiply a b = multiply b a := φ_inj (by rw [φ_mul, φ_mul, mul_comm])
theorem C18_assoc (a b c : Gf.Gf) : multiply (multiply a b) c = multiply a (multiply b c) :=
  φ_inj (by simp only [φ_mul, mul_assoc])
theorem C18_distrib (a b c : Gf.Gf) : multiply a (add b c) = add (multiply a b) (multiply a c) :=
  φ_inj (by simp only [φ_mul, φ_add, mul_add])
theorem C18_one (a : Gf.Gf) : multiply a (fromI32 1#32) = a := φ_inj (by rw [one_eq, φ_mul, φ_one, mul_one])
theorem C18_add_self (a : Gf.Gf) : add a a = fromI32 0#32 := by
  rw [zero_eq]; exact φ_inj (by rw [φ_add, φ_zero, CharTwo.add_self_eq_zero])
theorem C18_no_zero_divisors (a b : Gf.Gf) (h : multiply a b = fromI32 0#32) : a = fromI32 0#32 ∨ b = fromI32 0#32 := by
  rw [zero_eq] at *
  have := congrArg φ h
  rw [φ_mul, φ_zero, mul_eq_zero] at this
  rcases this with h | h
  · left; exact φ_inj (by rw [h, φ_zero])
  · right; exact φ_inj (by rw [h, φ_zero])

/-- `x^191 · x = x^192 = x^7 + x^2 + x + 1`. -/
example : multiply ⟨0#64, 0#64, 0x8000000000000000#64⟩ ⟨2#64, 0#64, 0#64⟩ = ⟨0x87#64, 0#64, 0#64⟩ := by decide +kernel
/-- A byte with its sign bit set is not sign-extended. -/
example : mulByI8 (fromI32 1#32) 0x80#8 = ⟨0x80#64, 0#64, 0#64⟩ := by decide +kernel

/-! ## C19 — inversion and repeated squaring -/

/-- C19: `invert` is the multiplicative inverse. -/
theorem C19_invert (a : Gf.Gf) (h : a ≠ fromI32 0#32) : multiply a (invert a) = fromI32 1#32 := by
  rw [zero_eq] at h
  rw [one_eq]
  apply φ_inj
  rw [φ_mul, φ_inv, φ_one, mul_inv_cancel₀]
  intro h0
  exact h (φ_inj (by rw [h0, φ_zero]))

/-- C19: it is the only one. -/
theorem C19_invert_unique (a b : Gf.Gf) (h : multiply a b = fromI32 1#32) : b = invert a := by
  rw [one_eq] at h
  have := congrArg φ h
  rw [φ_mul, φ_one] at this
  exact φ_inj (by rw [φ_inv]; exact eq_inv_of_mul_eq_one_right this)

/-- C19: zero is sent to zero. -/
theorem C19_invert_zero : invert (fromI32 0#32) = fromI32 0#32 := by
  rw [zero_eq]; exact φ_inj (by rw [φ_inv, φ_zero, inv_zero])

/-- C19: `power_2_to_2_to_k` raises to the power `2^(2^k)`, for every `k`, within and beyond the tables. -/
theorem C19_pow2To2ToK (z : Gf.Gf) (k : Nat) : gfPoly (pow2To2ToK z k) = (gfPoly z) ^ 2 ^ 2 ^ k %ₘ gfModulus :=
  gfPoly_pow z k

/-- C19: the table-driven square is the product with itself. -/
theorem C19_sqr (z : Gf.Gf) : sqr z = multiply z z := by
  apply φ_inj
  rw [φ_mul]
  have := φ_pow2 z 0
  unfold sqr
  rw [this]; ring

/-- An element with all three words in use meets the hypothesis of `C19_invert`. -/
example : (⟨1#64, 2#64, 3#64⟩ : Gf.Gf) ≠ fromI32 0#32 := by decide
example : multiply ⟨1#64, 2#64, 3#64⟩ (invert ⟨1#64, 2#64, 3#64⟩) = fromI32 1#32 := by decide +kernel

/-! ## C20 — interpolation -/

/-- C20: evaluation is evaluation (Horner's rule with the field's own product), for a polynomial whose degree field is
the index of the last coefficient. -/
theorem C20_evaluate (cs : List Gf.Gf) (c : Gf.Gf) (x : Byte) :
    (Poly.mk (c :: cs) cs.length).evaluate x = .ok (gfEval (c :: cs) (gfByte x)) :=
  evaluate_eq (polyOk_full (n := cs.length) (by simp) rfl) x

/-- C20: through distinct non-zero points there is a polynomial: interpolation does not fail, the degree is the number
of points, one coefficient more is stored, every point is hit, and so is the value at zero. -/
theorem C20_interpolate (points : List Byte) (values : List Gf.Gf) (v0 : Gf.Gf) (hlen : points.length = values.length)
    (hnd : points.Nodup) (hnz : 0#8 ∉ points) :
    ∃ p, interpolate points values v0 = .ok p ∧ p.degree = points.length ∧
      p.coefficients.length = points.length + 1 ∧
      (∀ i (h : i < points.length), p.evaluate points[i] = .ok (values[i]'(hlen ▸ h))) ∧ p.evaluate 0#8 = .ok v0 := by
  obtain ⟨p, h1, hok, hdeg, hl, hits, h0⟩ := interpolate_ok points values v0 hlen hnd hnz
  refine ⟨p, h1, hdeg, hl, ?_, ?_⟩
  · intro i h
    have hm : (points[i], values[i]'(hlen ▸ h)) ∈ points.zip values := by
      have hz : i < (points.zip values).length := by simp [hlen ▸ h, h]
      have := List.getElem_mem hz
      rwa [List.getElem_zip] at this
    rw [evaluate_eq hok]; congr 1
    apply φ_inj; rw [φ_eval, φ_byte]; exact hits _ hm
  · rw [evaluate_eq hok]; congr 1
    apply φ_inj; rw [φ_eval, φ_byte, pt_zero]; exact h0

/-- C20: it is the only one: any polynomial with as many coefficients and the same values is the interpolated one. -/
theorem C20_unique (points : List Byte) (values : List Gf.Gf) (v0 : Gf.Gf) (hlen : points.length = values.length)
    (hnd : points.Nodup) (hnz : 0#8 ∉ points) (q : Poly) (hq : q.degree = points.length)
    (hql : q.coefficients.length = points.length + 1)
    (hits : ∀ i (h : i < points.length), q.evaluate points[i] = .ok (values[i]'(hlen ▸ h))) (h0 : q.evaluate 0#8 = .ok v0) :
    interpolate points values v0 = .ok q := by
  obtain ⟨p, h1, hdeg, hl, hp, hp0⟩ := C20_interpolate points values v0 hlen hnd hnz
  rw [h1]; congr 1
  have pok : PolyOk p := polyOk_full hl hdeg
  have qok : PolyOk q := polyOk_full hql hq
  have hcs : p.coefficients = q.coefficients := by
    apply poly_unique _ _ (0#8 :: points) (List.nodup_cons.2 ⟨hnz, hnd⟩) (by simp [hl]) (by simp [hql])
    intro x hx
    have : p.evaluate x = q.evaluate x := by
      rcases List.mem_cons.1 hx with rfl | hx
      · rw [hp0, h0]
      · obtain ⟨i, hi, rfl⟩ := List.getElem_of_mem hx
        rw [hp i hi, hits i hi]
    rw [evaluate_eq pok, evaluate_eq qok] at this
    have := congrArg φ (Outcome.ok.inj this)
    rwa [φ_eval, φ_eval, φ_byte] at this
  cases p; cases q
  simp only at hcs hdeg hq
  rw [hcs, hdeg, hq]

/-- C20: lists of different lengths are refused. -/
theorem C20_length_mismatch (points : List Byte) (values : List Gf.Gf) (v0 : Gf.Gf) (h : points.length ≠ values.length) :
    interpolate points values v0 = .err := by unfold interpolate; rw [if_pos h]

/-- C20: the byte form (all coefficients but the lowest) together with the lowest coefficient gives the polynomial
back. -/
theorem C20_bytes (c0 : Gf.Gf) (cs : List Gf.Gf) :
    ∃ bs, Poly.toBytes ⟨c0 :: cs, cs.length⟩ = .ok bs ∧ bs.length = 24 * cs.length ∧
      Poly.ofBytes (toBytes c0) bs = some ⟨c0 :: cs, cs.length⟩ := poly_roundtrip c0 cs

/-- C20: and conversely, the byte form of a parsed polynomial is the string it was parsed from. -/
theorem C20_bytes_canonical (coeff0 more : Bytes) (n : Nat) (h0 : coeff0.length = 24) (hm : more.length = 24 * n) :
    ∃ p, Poly.ofBytes coeff0 more = some p ∧ p.degree = n ∧ p.toBytes = .ok more ∧
      p.coefficients[0]?.map toBytes = some coeff0 := by
  obtain ⟨cs, h1, h2, h3⟩ := toBytes_ofBytesLoop n more hm
  have hd : more.length / 24 = n := by omega
  refine ⟨⟨ofBytes24 coeff0 :: cs, n⟩, ?_, rfl, ?_, ?_⟩
  · unfold Poly.ofBytes; simp only [hd, h1]; rfl
  · unfold Poly.toBytes
    rw [toBytesLoop_ok _ _ _ (by simp [h2]; omega)]
    simp [← h2, h3]
  · simp [toBytes_ofBytes24 _ h0]

/-- C20: element bytes. -/
theorem C20_element_bytes (a : Gf.Gf) (rest : Bytes) : ofBytes (toBytes a ++ rest) = some a := ofBytes_toBytes a rest
theorem C20_bytes_element (bs : Bytes) (h : bs.length = 24) : toBytes (ofBytes24 bs) = bs := toBytes_ofBytes24 bs h

/-- The hypothesis "no zero among the points" is needed, and its violation goes unreported: asked for 1 at the point 0
and for 0 "at zero", the code returns a polynomial. -/
theorem C20_conflict_unreported : ∃ p, interpolate [0#8] [fromI32 1#32] (fromI32 0#32) = .ok p ∧
    p.evaluate 0#8 ≠ .ok (fromI32 0#32) :=
  ⟨⟨[fromI32 1#32, fromI32 0#32], 1⟩, by decide +kernel, by decide +kernel⟩

/-- Three points, four coefficients: the hypotheses of `C20_interpolate`, and the result. -/
example : ([1#8, 2#8, 0xFF#8] : List Byte).Nodup ∧ 0#8 ∉ ([1#8, 2#8, 0xFF#8] : List Byte) := by decide
example : ∃ p, interpolate [1#8, 2#8] [⟨5#64, 6#64, 7#64⟩, ⟨8#64, 9#64, 10#64⟩] ⟨1#64, 1#64, 1#64⟩ = .ok p ∧
    p.evaluate 2#8 = .ok ⟨8#64, 9#64, 10#64⟩ := by
  obtain ⟨p, h, _, _, h3, _⟩ := C20_interpolate [1#8, 2#8] [⟨5#64, 6#64, 7#64⟩, ⟨8#64, 9#64, 10#64⟩] ⟨1#64, 1#64, 1#64⟩
    rfl (by decide) (by decide)
  exact ⟨p, h, h3 1 (by decide)⟩

end Verif
