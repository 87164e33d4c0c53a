import Verif.Proofs.GfPoly
import Verif.Spec.Gf
import Mathlib.LinearAlgebra.Lagrange

set_option linter.unusedSimpArgs false
set_option linter.unusedVariables false

/-! From the field to the specification; byte codecs. -/

namespace Verif.Gf
open Polynomial Verif.Spec

theorem toN_testBit (a : Gf) (i : Nat) (h : i < 192) : (toN a).testBit i = gfBit a i := by
  unfold toN gfBit
  rw [Nat.add_comm, Nat.testBit_two_pow_mul_add _ a.w0.isLt]
  split
  · rfl
  · rw [Nat.add_comm, Nat.testBit_two_pow_mul_add _ a.w1.isLt]
    by_cases h2 : i < 128
    · rw [if_pos (by omega), if_pos h2]; rfl
    · rw [if_neg (by omega), if_neg h2]
      show a.w2.toNat.testBit (i - 64 - 64) = _
      rw [show i - 64 - 64 = i - 128 by omega]; rfl

theorem gfPoly_coeff (a : Gf) (i : Nat) : (gfPoly a).coeff i = if i < 192 ∧ gfBit a i then 1 else 0 := by
  unfold gfPoly
  rw [finset_sum_coeff]
  by_cases h : i < 192
  · rw [Finset.sum_eq_single i]
    · simp only [h, true_and]
      split
      · simp
      · simp
    · intro b _ hb
      split
      · rw [coeff_X_pow, if_neg (Ne.symm hb)]
      · simp
    · intro hn; exact absurd (Finset.mem_range.2 h) hn
  · rw [if_neg (by tauto)]
    apply Finset.sum_eq_zero
    intro b hb
    have := Finset.mem_range.1 hb
    split
    · rw [coeff_X_pow, if_neg (by omega)]
    · simp

theorem gfPoly_eq (a : Gf) : gfPoly a = bits X (toN a) := by
  ext i
  rw [gfPoly_coeff, bits_X_coeff]
  by_cases h : i < 192
  · simp only [h, true_and, toN_testBit a i h]
  · rw [if_neg (by tauto), Nat.testBit_lt_two_pow (lt_of_lt_of_le (toN_lt a) (Nat.pow_le_pow_right (by omega) (by omega)))]
    simp

theorem gfModulus_eq : gfModulus = P := by unfold gfModulus P; ring1

theorem gfPoly_degree (a : Gf) : (gfPoly a).degree < 192 := by
  rw [gfPoly_eq]; exact bits_X_degree _ 192 (toN_lt a)

theorem mod_aux (f a b : (ZMod 2)[X]) (k : Nat) (hf : f.Monic) (hk : f.natDegree = k) (ha : a.degree < k)
    (h : AdjoinRoot.mk f a = AdjoinRoot.mk f b) : a = b %ₘ f := by
  have hf0 : f ≠ 0 := hf.ne_zero
  apply mk_inj_aux f a (b %ₘ f) _ k hk hf0 ha
  · have := degree_modByMonic_lt b hf
    rwa [degree_eq_natDegree hf0, hk] at this
  · rw [h]
    refine AdjoinRoot.mk_eq_mk.2 ?_
    rw [modByMonic_eq_sub_mul_div]
    exact ⟨b /ₘ f, by ring⟩

theorem mk_gfPoly (a : Gf) : AdjoinRoot.mk P (gfPoly a) = φ a := by
  rw [gfPoly_eq, mk_bits]; rfl

theorem gfPoly_mul (a b : Gf) : gfPoly (multiply a b) = (gfPoly a * gfPoly b) %ₘ gfModulus := by
  rw [gfModulus_eq]
  refine mod_aux P (gfPoly (multiply a b)) _ 192 P_monic P_natDegree (gfPoly_degree _) ?_
  rw [map_mul, mk_gfPoly, mk_gfPoly, mk_gfPoly, φ_mul]

theorem gfPoly_add (a b : Gf) : gfPoly (add a b) = gfPoly a + gfPoly b := by
  haveI : CharP (ZMod 2)[X] 2 := inferInstance
  rw [gfPoly_eq, gfPoly_eq, gfPoly_eq, toN_add, bits_xor]

theorem gfPoly_inj {a b : Gf} (h : gfPoly a = gfPoly b) : a = b := by
  rw [gfPoly_eq, gfPoly_eq] at h
  exact toN_inj (bits_X_injective _ _ h)

theorem gfPoly_pow (z : Gf) (k : Nat) : gfPoly (pow2To2ToK z k) = (gfPoly z) ^ 2 ^ 2 ^ k %ₘ gfModulus := by
  rw [gfModulus_eq]
  refine mod_aux P (gfPoly (pow2To2ToK z k)) _ 192 P_monic P_natDegree (gfPoly_degree _) ?_
  rw [map_pow, mk_gfPoly, mk_gfPoly, φ_pow2]

theorem φ_byte (b : Byte) : φ (gfByte b) = pt b := by
  unfold φ val pt toN gfByte
  have := b.isLt
  congr 1

theorem mulByI8_eq (a : Gf) (b : Byte) : mulByI8 a b = multiply a (gfByte b) := by
  apply φ_inj
  rw [φ_mulI8, φ_mul, φ_byte]; rfl

theorem φ_eval (cs : List Gf) (x : Gf) : φ (gfEval cs x) = (listPoly cs).eval (φ x) := by
  induction cs with
  | nil => simp [gfEval, listPoly, φ_zero]
  | cons c cs ih =>
    have : gfEval (c :: cs) x = add c (multiply (gfEval cs x) x) := rfl
    rw [this, φ_add, φ_mul, ih]
    simp [listPoly]; ring

theorem evaluate_eq {p : Poly} (h : PolyOk p) (x : Byte) : p.evaluate x = .ok (gfEval p.coefficients (gfByte x)) := by
  obtain ⟨r, h1, h2⟩ := evaluate_ok h x
  rw [h1]; congr 1
  apply φ_inj; rw [h2, φ_eval, φ_byte]

theorem polyOk_full {p : Poly} {n : Nat} (h1 : p.coefficients.length = n + 1) (h2 : p.degree = n) : PolyOk p := by
  refine ⟨by omega, fun i hi => ?_⟩
  rw [List.getD_eq_getElem?_getD, List.getElem?_eq_none (by omega)]; rfl

/-- A polynomial with `n + 1` coefficients is determined by its values at `n + 1` points. -/
theorem poly_unique (cs ds : List Gf) (xs : List Byte) (hnd : xs.Nodup) (hc : cs.length = xs.length) (hd : ds.length = xs.length)
    (h : ∀ x ∈ xs, (listPoly cs).eval (pt x) = (listPoly ds).eval (pt x)) : cs = ds := by
  classical
  have hdeg : ∀ (l : List Gf), l.length = xs.length → (listPoly l).degree < xs.length := by
    intro l hl
    rw [degree_lt_iff_coeff_zero]
    intro m hm
    rw [listPoly_coeff, List.getD_eq_getElem?_getD, List.getElem?_eq_none (by omega)]
    exact φ_zero
  have hcard : (xs.map pt).toFinset.card = xs.length := by
    rw [List.toFinset_card_of_nodup, List.length_map]
    exact hnd.map (fun a b => pt_inj)
  have heq : listPoly cs = listPoly ds := by
    apply eq_of_degrees_lt_of_eval_finset_eq (xs.map pt).toFinset
    · rw [hcard]; exact hdeg cs hc
    · rw [hcard]; exact hdeg ds hd
    · intro z hz
      rw [List.mem_toFinset, List.mem_map] at hz
      obtain ⟨x, hx, rfl⟩ := hz
      exact h x hx
  apply List.ext_getElem (by omega)
  intro i h1 h2
  have := congrArg (fun p => p.coeff i) heq
  simp only [listPoly_coeff] at this
  have := φ_inj this
  rwa [List.getD_eq_getElem _ _ h1, List.getD_eq_getElem _ _ h2] at this

/-! Bytes -/

theorem wordBytes_length (w : BitVec 64) : (wordBytes w).length = 8 := by simp [wordBytes]
theorem toBytes_length (a : Gf) : (toBytes a).length = 24 := by simp [toBytes, wordBytes_length]

theorem byte_get (w : BitVec 64) (i : Nat) (hi : i < 8) :
    ((w.sshiftRight (8 * i)) &&& 0xFF#64).setWidth 8 = w.extractLsb' (8 * i) 8 := by
  ext j hj
  have : (255#8)[j] = true := (show ∀ (j : Nat) (h : j < 8), (255#8)[j] = true by decide) j hj
  have h2 : 8 * i + j < 64 := by omega
  have h3 : ¬ (64 ≤ j) := by omega
  simp [BitVec.getLsbD_sshiftRight, BitVec.getLsbD_extractLsb', this, hj, h2, h3]

theorem bytesWord_wordBytes (w : BitVec 64) (rest : Bytes) : bytesWord (wordBytes w ++ rest) = w := by
  have hb : wordBytes w = (List.range 8).map (fun i => w.extractLsb' (8 * i) 8) := by
    unfold wordBytes
    apply List.map_congr_left
    intro i hi
    exact byte_get w i (List.mem_range.1 hi)
  rw [hb]
  have hr : List.range 8 = [0, 1, 2, 3, 4, 5, 6, 7] := by decide
  simp only [bytesWord, hr, List.map_cons, List.map_nil, List.cons_append, List.nil_append, List.foldl_cons, List.foldl_nil,
    List.getD_cons_zero, List.getD_cons_succ]
  ext j hj
  simp only [BitVec.getElem_or, BitVec.getElem_shiftLeft, BitVec.getElem_and, BitVec.getElem_zero, BitVec.getLsbD_and,
    BitVec.getLsbD_setWidth, BitVec.getLsbD_extractLsb']
  interval_cases j <;> simp

theorem wordBytes_bytesWord (b0 b1 b2 b3 b4 b5 b6 b7 : Byte) (rest : Bytes) :
    wordBytes (bytesWord (b0 :: b1 :: b2 :: b3 :: b4 :: b5 :: b6 :: b7 :: rest)) = [b0, b1, b2, b3, b4, b5, b6, b7] := by
  have hb : ∀ w, wordBytes w = (List.range 8).map (fun i => w.extractLsb' (8 * i) 8) := by
    intro w
    unfold wordBytes
    apply List.map_congr_left
    intro i hi
    exact byte_get w i (List.mem_range.1 hi)
  rw [hb]
  have hr : List.range 8 = [0, 1, 2, 3, 4, 5, 6, 7] := by decide
  simp only [bytesWord, hr, List.map_cons, List.map_nil, List.cons_append, List.nil_append, List.foldl_cons, List.foldl_nil,
    List.getD_cons_zero, List.getD_cons_succ, List.cons.injEq, and_true]
  refine ⟨?_, ?_, ?_, ?_, ?_, ?_, ?_, ?_⟩ <;>
  · ext j hj
    interval_cases j <;> simp [BitVec.getLsbD_extractLsb']

theorem ofBytes_toBytes (a : Gf) (rest : Bytes) : ofBytes (toBytes a ++ rest) = some a := by
  unfold ofBytes
  rw [if_neg (by simp [toBytes_length])]
  have h1 : (toBytes a ++ rest).drop 8 = wordBytes a.w1 ++ (wordBytes a.w2 ++ rest) := by
    unfold toBytes; rw [List.append_assoc, List.append_assoc, List.drop_left' (wordBytes_length _)]
  have h2 : (toBytes a ++ rest).drop 16 = wordBytes a.w2 ++ rest := by
    rw [show 16 = 8 + 8 from rfl, ← List.drop_drop, h1, List.drop_left' (wordBytes_length _)]
  have h0 : toBytes a ++ rest = wordBytes a.w0 ++ (wordBytes a.w1 ++ (wordBytes a.w2 ++ rest)) := by
    unfold toBytes; simp
  rw [h1, h2, h0]
  simp only [bytesWord_wordBytes]

theorem ofBytes24_toBytes (a : Gf) : ofBytes24 (toBytes a) = a := by
  have := ofBytes_toBytes a []
  unfold ofBytes at this
  rw [if_neg (by simp [toBytes_length])] at this
  simpa [ofBytes24] using this

theorem eight (bs : Bytes) (h : 8 ≤ bs.length) : ∃ b0 b1 b2 b3 b4 b5 b6 b7 rest,
    bs = b0 :: b1 :: b2 :: b3 :: b4 :: b5 :: b6 :: b7 :: rest := by
  match bs, h with
  | b0 :: b1 :: b2 :: b3 :: b4 :: b5 :: b6 :: b7 :: rest, _ => exact ⟨b0, b1, b2, b3, b4, b5, b6, b7, rest, rfl⟩

theorem wordBytes_bytesWord' (bs : Bytes) (h : 8 ≤ bs.length) : wordBytes (bytesWord bs) = bs.take 8 := by
  obtain ⟨b0, b1, b2, b3, b4, b5, b6, b7, rest, rfl⟩ := eight bs h
  rw [wordBytes_bytesWord]; rfl

theorem toBytes_ofBytes24 (bs : Bytes) (h : bs.length = 24) : toBytes (ofBytes24 bs) = bs := by
  unfold toBytes ofBytes24
  simp only
  rw [wordBytes_bytesWord' _ (by omega), wordBytes_bytesWord' _ (by simp; omega), wordBytes_bytesWord' _ (by simp; omega)]
  rw [← List.drop_drop (i := 8) (j := 8), List.append_assoc]
  conv_rhs => rw [← List.take_append_drop 8 bs, ← List.take_append_drop 8 (bs.drop 8)]
  congr 2
  apply List.take_of_length_le
  simp; omega

theorem toBytesLoop_ok (cs : List Gf) : ∀ (n i : Nat), i + n ≤ cs.length →
    toBytesLoop cs n i = .ok (((cs.drop i).take n).flatMap toBytes) := by
  intro n
  induction n with
  | zero => intro i _; simp [toBytesLoop]
  | succ n ih =>
    intro i h
    rw [toBytesLoop, coeff_ok (by omega), Outcome.bind_ok, ih (i + 1) (by omega), Outcome.bind_ok,
      List.drop_eq_getElem_cons (show i < cs.length by omega)]
    simp only [List.take_succ_cons, List.flatMap_cons]
    rw [List.getD_eq_getElem _ _ (show i < cs.length by omega)]
    rfl

theorem ofBytesLoop_ok : ∀ (cs : List Gf), ofBytesLoop cs.length (cs.flatMap toBytes) = some cs := by
  intro cs
  induction cs with
  | nil => rfl
  | cons c cs ih =>
    simp only [List.flatMap_cons, List.length_cons, ofBytesLoop]
    rw [ofBytes_toBytes, List.drop_left' (toBytes_length c), ih]; rfl

theorem flatMap_length (cs : List Gf) : (cs.flatMap toBytes).length = 24 * cs.length := by
  induction cs with
  | nil => rfl
  | cons c cs ih => simp [toBytes_length, ih]; omega

theorem poly_roundtrip (c0 : Gf) (cs : List Gf) :
    ∃ bs, Poly.toBytes ⟨c0 :: cs, cs.length⟩ = .ok bs ∧ bs.length = 24 * cs.length ∧
      Poly.ofBytes (toBytes c0) bs = some ⟨c0 :: cs, cs.length⟩ := by
  refine ⟨cs.flatMap toBytes, ?_, flatMap_length cs, ?_⟩
  · unfold Poly.toBytes
    rw [toBytesLoop_ok _ _ _ (by simp; omega)]; simp
  · unfold Poly.ofBytes
    have : (cs.flatMap toBytes).length / 24 = cs.length := by rw [flatMap_length]; omega
    simp only [this, ofBytesLoop_ok, ofBytes24_toBytes]; rfl

theorem toBytes_ofBytesLoop : ∀ (n : Nat) (bs : Bytes), bs.length = 24 * n → ∃ cs, ofBytesLoop n bs = some cs ∧ cs.length = n ∧
    cs.flatMap toBytes = bs := by
  intro n
  induction n with
  | zero => intro bs h; exact ⟨[], rfl, rfl, by have : bs = [] := List.length_eq_zero_iff.1 (by omega)
                                                simp [this]⟩
  | succ n ih =>
    intro bs h
    obtain ⟨cs, h1, h2, h3⟩ := ih (bs.drop 24) (by simp; omega)
    have hsplit : bs = toBytes (ofBytes24 (bs.take 24)) ++ bs.drop 24 := by
      rw [toBytes_ofBytes24 _ (by simp; omega), List.take_append_drop]
    refine ⟨ofBytes24 (bs.take 24) :: cs, ?_, by simp [h2], ?_⟩
    · have : ofBytes bs = some (ofBytes24 (bs.take 24)) := by
        conv_lhs => rw [hsplit]
        exact ofBytes_toBytes _ _
      rw [ofBytesLoop, this, Option.bind_eq_bind, Option.bind_some, h1]; rfl
    · rw [List.flatMap_cons, h3, ← hsplit]

end Verif.Gf
