import Verif.Proofs.GfInvert
import Mathlib.Algebra.Polynomial.Eval.Degree

set_option linter.unusedSimpArgs false
set_option linter.unusedVariables false

/-! Polynomials over GF(2^192): evaluation and interpolation. -/

namespace Verif.Gf
open Polynomial

/-- Coefficient list as a polynomial. -/
noncomputable def listPoly : List Gf → K[X]
  | [] => 0
  | c :: cs => C (φ c) + X * listPoly cs

theorem listPoly_coeff : ∀ (cs : List Gf) (i : Nat), (listPoly cs).coeff i = φ (cs.getD i zero) := by
  intro cs
  induction cs with
  | nil => intro i; simp [listPoly, φ_zero]
  | cons c cs ih =>
    intro i
    cases i with
    | zero => simp [listPoly]
    | succ i => simp [listPoly, coeff_X_mul, ih, coeff_C_succ]

theorem coeff_ok {cs : List Gf} {i : Nat} (h : i < cs.length) : coeff cs i = .ok (cs.getD i zero) := by
  unfold coeff; rw [List.getElem?_eq_getElem h, List.getD_eq_getElem _ _ h]

theorem setCoeff_ok {cs : List Gf} {i : Nat} (v : Gf) (h : i < cs.length) : setCoeff cs i v = .ok (cs.set i v) := by
  unfold setCoeff; rw [if_pos h]

theorem getD_set (cs : List Gf) (i j : Nat) (v : Gf) (h : i < cs.length) :
    (cs.set i v).getD j zero = if j = i then v else cs.getD j zero := by
  simp only [List.getD_eq_getElem?_getD, List.getElem?_set]
  by_cases e : i = j
  · subst e; simp [h]
  · simp [e, Ne.symm e]

/-- A polynomial value in a consistent state: degree within the allocated coefficients, zeros above it. -/
structure PolyOk (p : Poly) : Prop where
  deg : p.degree < p.coefficients.length
  high : ∀ i, p.degree < i → p.coefficients.getD i zero = zero

/-- The field element of a point. -/
noncomputable def pt (x : Byte) : K := bits root x.toNat

theorem pt_inj {x y : Byte} (h : pt x = pt y) : x = y := by
  have hx := x.isLt; have hy := y.isLt
  have h1 : x.toNat < 2 ^ 192 := by omega
  have h2 : y.toNat < 2 ^ 192 := by omega
  exact BitVec.eq_of_toNat_eq (bits_root_inj h1 h2 h)

theorem pt_zero : pt 0#8 = 0 := by unfold pt; simp

theorem evalLoop_ok (cs : List Gf) (x : Byte) : ∀ (d : Nat) (res : Gf), d ≤ cs.length → ∃ r, evalLoop cs x d res = .ok r ∧
    φ r = φ res * pt x ^ d + ∑ i ∈ Finset.range d, φ (cs.getD i zero) * pt x ^ i := by
  intro d
  induction d with
  | zero => intro res _; exact ⟨res, rfl, by simp⟩
  | succ d ih =>
    intro res hd
    obtain ⟨r, h1, h2⟩ := ih (add (mulByI8 res x) (cs.getD d zero)) (by omega)
    refine ⟨r, ?_, ?_⟩
    · rw [evalLoop, coeff_ok (by omega)]; exact h1
    · rw [h2, φ_add, φ_mulI8, Finset.sum_range_succ]
      unfold pt; ring

theorem listPoly_natDegree {p : Poly} (h : PolyOk p) : (listPoly p.coefficients).natDegree ≤ p.degree := by
  rw [natDegree_le_iff_coeff_eq_zero]
  intro N hN
  rw [listPoly_coeff, h.high N hN, φ_zero]

theorem evaluate_ok {p : Poly} (h : PolyOk p) (x : Byte) : ∃ r, p.evaluate x = .ok r ∧
    φ r = (listPoly p.coefficients).eval (pt x) := by
  obtain ⟨r, h1, h2⟩ := evalLoop_ok p.coefficients x p.degree (p.coefficients.getD p.degree zero) (le_of_lt h.deg)
  refine ⟨r, ?_, ?_⟩
  · unfold Poly.evaluate; rw [coeff_ok h.deg]; exact h1
  · rw [h2, eval_eq_sum_range' (n := p.degree + 1) (Nat.lt_succ_of_le (listPoly_natDegree h)), Finset.sum_range_succ]
    simp only [listPoly_coeff]; ring

theorem addMonicLoop_ok (ps : List Gf) (r : Gf) : ∀ (n i : Nat) (cs : List Gf), i + n ≤ ps.length → i + n ≤ cs.length →
    ∃ cs', addMonicLoop ps r n i cs = .ok cs' ∧ cs'.length = cs.length ∧
      ∀ j, cs'.getD j zero = if i ≤ j ∧ j < i + n then add (cs.getD j zero) (multiply (ps.getD j zero) r)
        else cs.getD j zero := by
  intro n
  induction n with
  | zero => intro i cs _ _; exact ⟨cs, rfl, rfl, fun j => by rw [if_neg (by omega)]⟩
  | succ n ih =>
    intro i cs hp hc
    obtain ⟨cs', h1, h2, h3⟩ := ih (i + 1) (cs.set i (add (cs.getD i zero) (multiply (ps.getD i zero) r)))
      (by omega) (by simp; omega)
    refine ⟨cs', ?_, by simpa using h2, ?_⟩
    · rw [addMonicLoop, coeff_ok (by omega), Outcome.bind_ok, coeff_ok (by omega), Outcome.bind_ok,
        setCoeff_ok _ (by omega)]
      exact h1
    · intro j
      rw [h3, getD_set _ _ _ _ (by omega)]
      by_cases e : j = i
      · subst e
        rw [if_neg (by omega), if_pos rfl, if_pos (by omega)]
      · simp only [if_neg e]
        by_cases h : i + 1 ≤ j ∧ j < i + 1 + n
        · rw [if_pos h, if_pos (by omega)]
        · rw [if_neg h, if_neg (by omega)]

/-- `self` has only zeros from the degree of `p` on, `p` is monic: then the result is `self + r p`. -/
theorem addMonic_ok (self p : Poly) (r : Gf) (hp : PolyOk p) (hmonic : p.coefficients.getD p.degree zero = one)
    (hlen : self.coefficients.length = p.coefficients.length)
    (hself : ∀ i, p.degree ≤ i → self.coefficients.getD i zero = zero) :
    ∃ q, self.addMonicTimesConstant p r = .ok q ∧ PolyOk q ∧ q.degree = p.degree ∧
      q.coefficients.length = p.coefficients.length ∧
      listPoly q.coefficients = listPoly self.coefficients + C (φ r) * listPoly p.coefficients := by
  obtain ⟨cs, h1, h2, h3⟩ := addMonicLoop_ok p.coefficients r p.degree 0 self.coefficients
    (by have := hp.deg; omega) (by have := hp.deg; omega)
  have hd : p.degree < cs.length := by rw [h2, hlen]; exact hp.deg
  have hget : ∀ j, (cs.set p.degree r).getD j zero = if j = p.degree then r else
      if j < p.degree then add (self.coefficients.getD j zero) (multiply (p.coefficients.getD j zero) r)
      else zero := by
    intro j
    rw [getD_set _ _ _ _ hd, h3]
    by_cases e : j = p.degree
    · simp [e]
    · simp only [if_neg e]
      by_cases h : j < p.degree
      · rw [if_pos (by omega), if_pos h]
      · rw [if_neg (by omega), if_neg h, hself j (by omega)]
  refine ⟨{ coefficients := cs.set p.degree r, degree := p.degree }, ?_, ⟨?_, ?_⟩, rfl, ?_, ?_⟩
  · unfold Poly.addMonicTimesConstant
    rw [h1, Outcome.bind_ok, setCoeff_ok _ hd]; rfl
  · simpa using hd
  · intro i hi
    show (cs.set p.degree r).getD i zero = zero
    have hi' : p.degree < i := hi
    rw [hget, if_neg (by omega), if_neg (by omega)]
  · simp [h2, hlen]
  · ext j
    rw [coeff_add, coeff_C_mul, listPoly_coeff, listPoly_coeff, listPoly_coeff]
    show φ ((cs.set p.degree r).getD j zero) = _
    rw [hget]
    by_cases e : j = p.degree
    · rw [if_pos e, e, hself _ (le_refl _), hmonic, φ_zero, φ_one]; ring
    · rw [if_neg e]
      by_cases h : j < p.degree
      · rw [if_pos h, φ_add, φ_mul]; ring
      · rw [if_neg h, hself j (by omega), hp.high j (by omega), φ_zero]; ring

theorem mulLinearLoop_ok (r : Byte) : ∀ (n : Nat) (cs : List Gf), n < cs.length →
    ∃ cs', mulLinearLoop r n cs = .ok cs' ∧ cs'.length = cs.length ∧
      ∀ j, cs'.getD j zero = if 1 ≤ j ∧ j ≤ n then add (mulByI8 (cs.getD j zero) r) (cs.getD (j - 1) zero)
        else cs.getD j zero := by
  intro n
  induction n with
  | zero => intro cs _; exact ⟨cs, rfl, rfl, fun j => by rw [if_neg (by omega)]⟩
  | succ n ih =>
    intro cs hc
    obtain ⟨cs', h1, h2, h3⟩ := ih (cs.set (n + 1) (add (mulByI8 (cs.getD (n + 1) zero) r) (cs.getD n zero)))
      (by simp; omega)
    refine ⟨cs', ?_, by simpa using h2, ?_⟩
    · rw [mulLinearLoop, coeff_ok hc, Outcome.bind_ok, coeff_ok (by omega), Outcome.bind_ok, setCoeff_ok _ hc]
      exact h1
    · intro j
      rw [h3, getD_set _ _ _ _ hc, getD_set _ _ _ _ hc]
      by_cases e : j = n + 1
      · subst e
        rw [if_neg (by omega), if_pos rfl, if_pos (by omega)]; simp
      · simp only [if_neg e]
        by_cases h : 1 ≤ j ∧ j ≤ n
        · have e' : ¬ (j - 1 = n + 1) := by omega
          simp only [if_neg e']
          rw [if_pos h, if_pos (by omega)]
        · rw [if_neg h, if_neg (by omega)]

theorem one_eq : fromI32 1#32 = one := by decide
theorem zero_eq : fromI32 0#32 = zero := by decide

theorem mulLinear_ok (p : Poly) (r : Byte) (hp : PolyOk p) (hmonic : p.coefficients.getD p.degree zero = one)
    (hroom : p.degree + 1 < p.coefficients.length) :
    ∃ q, p.multiplyByLinearBinomial r = .ok q ∧ PolyOk q ∧ q.degree = p.degree + 1 ∧
      q.coefficients.getD q.degree zero = one ∧ q.coefficients.length = p.coefficients.length ∧
      listPoly q.coefficients = (X + C (pt r)) * listPoly p.coefficients := by
  obtain ⟨cs, h1, h2, h3⟩ := mulLinearLoop_ok r p.degree (p.coefficients.set (p.degree + 1) one) (by simp; omega)
  have hlen : cs.length = p.coefficients.length := by simpa using h2
  have hget : ∀ j, (cs.set 0 (mulByI8 (cs.getD 0 zero) r)).getD j zero =
      if j = 0 then mulByI8 (p.coefficients.getD 0 zero) r
      else if j ≤ p.degree then add (mulByI8 (p.coefficients.getD j zero) r) (p.coefficients.getD (j - 1) zero)
      else if j = p.degree + 1 then one else zero := by
    intro j
    rw [getD_set _ _ _ _ (by omega), h3 0, h3 j]
    simp only [getD_set _ _ _ _ hroom]
    by_cases e : j = 0
    · subst e; simp
    · simp only [if_neg e]
      by_cases h : j ≤ p.degree
      · rw [if_pos (by omega), if_pos h, if_neg (by omega), if_neg (by omega)]
      · rw [if_neg (by omega), if_neg h]
        by_cases h' : j = p.degree + 1
        · simp [h']
        · rw [if_neg h', if_neg h', hp.high j (by omega)]
  refine ⟨{ coefficients := cs.set 0 (mulByI8 (cs.getD 0 zero) r), degree := p.degree + 1 }, ?_, ⟨?_, ?_⟩, rfl, ?_, ?_, ?_⟩
  · unfold Poly.multiplyByLinearBinomial
    simp only [one_eq, Nat.add_sub_cancel]
    rw [setCoeff_ok _ hroom, Outcome.bind_ok, h1, Outcome.bind_ok, coeff_ok (by omega), Outcome.bind_ok,
      setCoeff_ok _ (by omega)]
    rfl
  · simpa [hlen] using hroom
  · intro i hi
    show (cs.set 0 (mulByI8 (cs.getD 0 zero) r)).getD i zero = zero
    have hi' : p.degree + 1 < i := hi
    rw [hget, if_neg (by omega), if_neg (by omega), if_neg (by omega)]
  · show (cs.set 0 (mulByI8 (cs.getD 0 zero) r)).getD (p.degree + 1) zero = one
    rw [hget, if_neg (by omega), if_neg (by omega), if_pos rfl]
  · simp [hlen]
  · ext j
    rw [add_mul, coeff_add, coeff_C_mul, listPoly_coeff]
    show φ ((cs.set 0 (mulByI8 (cs.getD 0 zero) r)).getD j zero) = _
    rw [hget]
    cases j with
    | zero => simp [listPoly_coeff, φ_mulI8, pt]; ring
    | succ j =>
      rw [coeff_X_mul, listPoly_coeff, listPoly_coeff, if_neg (by omega)]
      by_cases h : j + 1 ≤ p.degree
      · rw [if_pos h, φ_add, φ_mulI8]; simp [pt]; ring
      · rw [if_neg h]
        by_cases h' : j + 1 = p.degree + 1
        · have : j = p.degree := by omega
          rw [if_pos h', hp.high (j + 1) (by omega), this, hmonic, φ_zero]; ring
        · rw [if_neg h', hp.high (j + 1) (by omega), hp.high j (by omega), φ_zero]; ring

/-- Loop invariant of `interpolate`: `done` are the points already treated. -/
structure InterpInv (n : Nat) (done : List (Byte × Gf)) (res van : Poly) : Prop where
  resOk : PolyOk res
  vanOk : PolyOk van
  resLen : res.coefficients.length = n + 1
  vanLen : van.coefficients.length = n + 1
  vanDeg : van.degree = done.length
  monic : van.coefficients.getD van.degree zero = one
  resLow : ∀ i, done.length ≤ i → res.coefficients.getD i zero = zero
  vanish : ∀ z, (listPoly van.coefficients).eval z = (done.map (fun p => z + pt p.1)).prod
  hits : ∀ p ∈ done, (listPoly res.coefficients).eval (pt p.1) = φ p.2

theorem prod_ne_zero (x : Byte) (done : List (Byte × Gf)) (h : x ∉ done.map Prod.fst) :
    (done.map (fun p => pt x + pt p.1)).prod ≠ 0 := by
  intro h0
  have hm := List.prod_eq_zero_iff.1 h0
  obtain ⟨p, hp, he⟩ := List.mem_map.1 hm
  apply h
  rw [List.mem_map]
  refine ⟨p, hp, ?_⟩
  have := CharTwo.add_eq_zero.1 he
  exact (pt_inj this).symm

theorem prod_zero (p : Byte × Gf) (done : List (Byte × Gf)) (h : p ∈ done) :
    (done.map (fun q => pt p.1 + pt q.1)).prod = 0 := by
  rw [List.prod_eq_zero_iff]
  exact List.mem_map.2 ⟨p, h, CharTwo.add_self_eq_zero _⟩

theorem interpLoop_ok (n : Nat) : ∀ (rest done : List (Byte × Gf)) (res van : Poly), InterpInv n done res van →
    done.length + rest.length = n → ((done ++ rest).map Prod.fst).Nodup →
    ∃ res' van', interpLoop rest (res, van) = .ok (res', van') ∧ InterpInv n (done ++ rest) res' van' := by
  intro rest
  induction rest with
  | nil => intro done res van h _ _; exact ⟨res, van, rfl, by simpa using h⟩
  | cons p rest ih =>
    intro done res van h hn hnd
    obtain ⟨x, v⟩ := p
    have hxn : x ∉ done.map Prod.fst := by
      simp only [List.map_append, List.map_cons] at hnd
      have := List.nodup_append.1 hnd
      intro hm
      exact this.2.2 x hm x (by simp) rfl
    obtain ⟨t, ht, htv⟩ := evaluate_ok h.resOk x
    obtain ⟨s, hs, hsv⟩ := evaluate_ok h.vanOk x
    obtain ⟨q, hq, hqok, hqdeg, hqlen, hqpoly⟩ := addMonic_ok res van (multiply (add t v) (invert s)) h.vanOk h.monic
      (by rw [h.resLen, h.vanLen]) (fun i hi => h.resLow i (by rw [← h.vanDeg]; exact hi))
    obtain ⟨w, hw, hwok, hwdeg, hwmonic, hwlen, hwpoly⟩ := mulLinear_ok van x h.vanOk h.monic
      (by rw [h.vanDeg, h.vanLen]; simp only [List.length_cons] at hn; omega)
    have hvx : φ s ≠ 0 := by rw [hsv, h.vanish]; exact prod_ne_zero x done hxn
    have inv : InterpInv n (done ++ [(x, v)]) q w := {
      resOk := hqok
      vanOk := hwok
      resLen := by rw [hqlen, h.vanLen]
      vanLen := by rw [hwlen, h.vanLen]
      vanDeg := by rw [hwdeg, h.vanDeg]; simp
      monic := hwmonic
      resLow := by
        intro i hi
        simp only [List.length_append, List.length_cons, List.length_nil] at hi
        exact hqok.high i (by rw [hqdeg, h.vanDeg]; omega)
      vanish := by
        intro z
        rw [hwpoly, eval_mul, h.vanish]
        simp [mul_comm]
      hits := by
        intro p hp
        rw [hqpoly, eval_add, eval_mul, eval_C]
        rcases List.mem_append.1 hp with hp | hp
        · rw [h.hits p hp, h.vanish, prod_zero p done hp]; ring
        · simp at hp; subst hp
          rw [← htv, ← hsv, φ_mul, φ_inv, φ_add, mul_assoc, inv_mul_cancel₀ hvx, mul_one, ← add_assoc,
            CharTwo.add_self_eq_zero, zero_add] }
    obtain ⟨res', van', h1, h2⟩ := ih (done ++ [(x, v)]) q w inv (by simp at hn ⊢; omega) (by simpa using hnd)
    refine ⟨res', van', ?_, by simpa using h2⟩
    rw [interpLoop, ht, Outcome.bind_ok, hs, Outcome.bind_ok, hq, Outcome.bind_ok, hw, Outcome.bind_ok]
    exact h1

theorem makeConstant_get (n : Nat) (v : BitVec 32) (i : Nat) :
    (makeConstant n v).coefficients.getD i zero = if i = 0 then fromI32 v else zero := by
  unfold makeConstant
  cases i with
  | zero => simp
  | succ i =>
    simp only [List.getD_cons_succ]
    rw [if_neg (by omega)]
    rw [List.getD_eq_getElem?_getD, List.getElem?_replicate]
    split <;> rfl

theorem interpolate_ok (points : List Byte) (values : List Gf) (v0 : Gf) (hlen : points.length = values.length)
    (hnd : points.Nodup) (hnz : 0#8 ∉ points) :
    ∃ p, interpolate points values v0 = .ok p ∧ PolyOk p ∧ p.degree = points.length ∧
      p.coefficients.length = points.length + 1 ∧
      (∀ q ∈ points.zip values, (listPoly p.coefficients).eval (pt q.1) = φ q.2) ∧
      (listPoly p.coefficients).eval 0 = φ v0 := by
  have hzl : (points.zip values).length = points.length := by simp [hlen]
  have hfst : (points.zip values).map Prod.fst = points := by
    rw [List.map_fst_zip (by omega)]
  have init : InterpInv values.length [] (makeConstant values.length 0#32) (makeConstant values.length 1#32) := {
    resOk := ⟨by simp [makeConstant], fun i hi => by rw [makeConstant_get, if_neg (by simp [makeConstant] at hi; omega)]⟩
    vanOk := ⟨by simp [makeConstant], fun i hi => by rw [makeConstant_get, if_neg (by simp [makeConstant] at hi; omega)]⟩
    resLen := by simp [makeConstant]
    vanLen := by simp [makeConstant]
    vanDeg := rfl
    monic := by rw [makeConstant_get]; simp [makeConstant, one_eq]
    resLow := by intro i _; rw [makeConstant_get, zero_eq]; simp
    vanish := by
      intro z
      have : listPoly (makeConstant values.length 1#32).coefficients = 1 := by
        ext j
        rw [listPoly_coeff, makeConstant_get, coeff_one]
        by_cases h : j = 0
        · simp [h, one_eq, φ_one]
        · simp [h, φ_zero]
      rw [this]; simp
    hits := by simp }
  obtain ⟨res, van, h1, h⟩ := interpLoop_ok values.length (points.zip values) [] _ _ init (by simp [hlen])
    (by simpa [hfst] using hnd)
  simp only [List.nil_append] at h
  obtain ⟨q, hq, hqok, hqdeg, hqlen, hqpoly⟩ := addMonic_ok res van
    (multiply (add (res.coefficients.getD 0 zero) v0) (invert (van.coefficients.getD 0 zero))) h.vanOk h.monic
    (by rw [h.resLen, h.vanLen]) (fun i hi => h.resLow i (by rw [← h.vanDeg]; exact hi))
  refine ⟨q, ?_, hqok, ?_, ?_, ?_, ?_⟩
  · unfold interpolate
    rw [if_neg (by simp [hlen]), h1]
    simp only [Outcome.bind_ok]
    rw [coeff_ok (by rw [h.resLen]; omega), Outcome.bind_ok, coeff_ok (by rw [h.vanLen]; omega), Outcome.bind_ok]
    exact hq
  · rw [hqdeg, h.vanDeg, hzl]
  · rw [hqlen, h.vanLen, hlen]
  · intro p hp
    rw [hqpoly, eval_add, eval_mul, eval_C, h.hits p hp, h.vanish, prod_zero p _ hp]; ring
  · have e1 : (listPoly res.coefficients).eval 0 = φ (res.coefficients.getD 0 zero) := by
      rw [← coeff_zero_eq_eval_zero, listPoly_coeff]
    have e2 : (listPoly van.coefficients).eval 0 = φ (van.coefficients.getD 0 zero) := by
      rw [← coeff_zero_eq_eval_zero, listPoly_coeff]
    have hv : φ (van.coefficients.getD 0 zero) ≠ 0 := by
      rw [← e2, h.vanish]
      have := prod_ne_zero 0#8 (points.zip values) (by rw [hfst]; exact hnz)
      rwa [pt_zero] at this
    rw [hqpoly, eval_add, eval_mul, eval_C, e1, e2, φ_mul, φ_inv, φ_add, mul_assoc, inv_mul_cancel₀ hv, mul_one,
      ← add_assoc, CharTwo.add_self_eq_zero, zero_add]

end Verif.Gf
