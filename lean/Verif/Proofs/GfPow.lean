import Verif.Proofs.GfMul
import Verif.Proofs.GfRows
import Mathlib.Algebra.CharP.Frobenius

set_option linter.unusedSimpArgs false
set_option linter.unusedVariables false

/-! The power tables hold the powers of `x`: `power_2_to_2_to_k` raises to the power `2 ^ (2 ^ k)`. -/

namespace Verif.Gf

section
variable {R : Type*} [CommRing R]

/-- Sum of the entries selected by the bits of `n`. -/
def lin : List R → Nat → R
  | [], _ => 0
  | e :: es, n => ((n % 2 : Nat) : R) * e + lin es (n / 2)

theorem lin_zero : ∀ es : List R, lin es 0 = 0 := by
  intro es
  induction es with
  | nil => rfl
  | cons e es ih => simp [lin, ih]

theorem lin_append : ∀ (as bs : List R) (lo hi : Nat), lo < 2 ^ as.length →
    lin (as ++ bs) (lo + 2 ^ as.length * hi) = lin as lo + lin bs hi := by
  intro as
  induction as with
  | nil => intro bs lo hi h; simp at h; subst h; simp [lin]
  | cons a as ih =>
    intro bs lo hi h
    simp only [List.length_cons, List.cons_append, lin] at h ⊢
    have e1 : (lo + 2 ^ (as.length + 1) * hi) % 2 = lo % 2 := by rw [Nat.pow_succ, Nat.mul_comm _ 2, Nat.mul_assoc]; omega
    have e2 : (lo + 2 ^ (as.length + 1) * hi) / 2 = lo / 2 + 2 ^ as.length * hi := by
      rw [Nat.pow_succ, Nat.mul_comm _ 2, Nat.mul_assoc]; omega
    rw [e1, e2, ih bs (lo / 2) hi (by rw [Nat.pow_succ] at h; omega)]
    ring

/-- `y, y z, y z^2, …` -/
def Geometric (z : R) : R → List R → Prop
  | _, [] => True
  | y, e :: es => e = y ∧ Geometric z (y * z) es

theorem lin_geometric (z : R) : ∀ (es : List R) (y : R) (n : Nat), Geometric z y es → n < 2 ^ es.length →
    lin es n = y * bits z n := by
  intro es
  induction es with
  | nil => intro y n _ h; simp at h; subst h; simp [lin]
  | cons e es ih =>
    intro y n hg h
    obtain ⟨rfl, hg⟩ := hg
    rw [lin, ih _ (n / 2) hg (by rw [List.length_cons, Nat.pow_succ] at h; omega), bits_eq z n]
    ring

variable [CharP R 2] (x : R)

theorem lin_linN : ∀ (es : List Nat) (n : Nat), bits x (linN es n) = lin (es.map (bits x)) n := by
  intro es
  induction es with
  | nil => intro n; simp [linN, lin]
  | cons e es ih =>
    intro n
    cases n with
    | zero => simp [linN, lin_zero]
    | succ n =>
      rw [linN, List.map_cons, lin]
      rcases Nat.mod_two_eq_zero_or_one (n + 1) with h | h
      · rw [h, show Nat.beq 0 1 = false from rfl]; simp [ih]
      · rw [h, show Nat.beq 1 1 = true from rfl]
        simp only [cond_true, Nat.cast_one, one_mul]
        have : ∀ a b, bits x (Nat.xor a b) = bits x a + bits x b := fun a b => bits_xor x a b
        rw [this, ih]

theorem chk_spec : ∀ (row as bs : List Nat), chk row as bs = true → bs = as.map (linN row) := by
  intro row as
  induction as with
  | nil => intro bs h; cases bs with
    | nil => rfl
    | cons b bs => simp [chk] at h
  | cons a as ih => intro bs h; cases bs with
    | nil => simp [chk] at h
    | cons b bs =>
      rw [chk] at h
      cases hb : Nat.beq (linN row a) b with
      | false => rw [hb] at h; simp at h
      | true =>
        rw [hb] at h
        simp only [cond_true] at h
        rw [List.map_cons, ← ih bs h, Nat.eq_of_beq_eq_true hb]

/-- If a row holds the powers of `y` and `row'` is its image under `linN row`, then `row'` holds the powers of the
`2^m`-th power when `y` is the `2^m`-th power of `x`. -/
theorem geometric_step (m : Nat) (row : List Nat) (hlen : row.length = 192)
    (hg : Geometric (x ^ 2 ^ m) 1 (row.map (bits x))) (hlt : ∀ a ∈ row, a < 2 ^ 192) (row' : List Nat)
    (hc : chk row row row' = true) : Geometric (x ^ 2 ^ (m + m)) 1 (row'.map (bits x)) := by
  haveI : Fact (Nat.Prime 2) := ⟨Nat.prime_two⟩
  haveI : ExpChar R 2 := ExpChar.prime Nat.prime_two
  have hrow := chk_spec row row row' hc
  have key : ∀ n, n < 2 ^ 192 → bits x (linN row n) = (bits x n) ^ 2 ^ m := by
    intro n hn
    rw [lin_linN, lin_geometric _ _ 1 n hg (by simpa [hlen] using hn), one_mul]
    have := map_bits (iterateFrobenius R 2 m) x n
    rw [iterateFrobenius_def, iterateFrobenius_def] at this
    exact this.symm
  rw [hrow]
  have gen : ∀ (l : List Nat) (y : R), (∀ a ∈ l, a < 2 ^ 192) → Geometric (x ^ 2 ^ m) y (l.map (bits x)) →
      Geometric (x ^ 2 ^ (m + m)) (y ^ 2 ^ m) ((l.map (linN row)).map (bits x)) := by
    intro l
    induction l with
    | nil => intro y _ _; trivial
    | cons a l ih =>
      intro y hl hg
      obtain ⟨h1, h2⟩ := hg
      refine ⟨?_, ?_⟩
      · rw [key a (hl a (by simp)), h1]
      · have := ih _ (fun b hb => hl b (by simp [hb])) h2
        have e : (y * x ^ 2 ^ m) ^ 2 ^ m = y ^ 2 ^ m * x ^ 2 ^ (m + m) := by
          rw [mul_pow, ← pow_mul, ← pow_add]
        rw [← e]; exact this
  have := gen row 1 hlt hg
  rwa [one_pow] at this

theorem squares_geometric (hx : x ^ 192 = bits x 135) : ∀ (l : List Nat) (e : Nat), e < 2 ^ 192 → chkSquares e l = true →
    Geometric (x ^ 2) (bits x e) (l.map (bits x)) := by
  intro l
  induction l with
  | nil => intro e _ _; trivial
  | cons a l ih =>
    intro e he h
    rw [chkSquares] at h
    cases hb : Nat.beq a e with
    | false => rw [hb] at h; simp at h
    | true =>
      rw [hb] at h
      simp only [cond_true] at h
      have hae := Nat.eq_of_beq_eq_true hb
      have hhi : 4 * e / 2 ^ 192 < 4 := by omega
      have hcl : ∀ h, h < 4 → clmul4 h = clmul 135 h := by
        intro h hh; interval_cases h <;> decide +kernel
      have hlt2 : Nat.xor ((4 * e) % 2 ^ 192) (clmul4 (4 * e / 2 ^ 192)) < 2 ^ 192 := by
        apply Nat.xor_lt_two_pow (Nat.mod_lt _ (by positivity))
        unfold clmul4
        split
        · norm_num
        split
        · norm_num
        split <;> norm_num
      have := ih _ hlt2 h
      have hval : bits x (Nat.xor ((4 * e) % 2 ^ 192) (clmul4 (4 * e / 2 ^ 192))) = bits x e * x ^ 2 := by
        have hxor : ∀ a b, bits x (Nat.xor a b) = bits x a + bits x b := fun a b => bits_xor x a b
        rw [hxor, hcl _ hhi, bits_clmul, ← hx, ← bits_append x 192 _ _ (Nat.mod_lt _ (by positivity)), Nat.mod_add_div]
        have := bits_shift x 2 e
        norm_num at this
        rw [this]; ring
      rw [hval] at this
      exact ⟨by rw [hae], this⟩

theorem rows_lt : (row0.all (· < 2 ^ 192) && row1.all (· < 2 ^ 192) && row2.all (· < 2 ^ 192) && row3.all (· < 2 ^ 192) &&
    row4.all (· < 2 ^ 192) && row5.all (· < 2 ^ 192) && row6.all (· < 2 ^ 192)) = true := by decide +kernel

theorem rows_len : row0.length = 192 ∧ row1.length = 192 ∧ row2.length = 192 ∧ row3.length = 192 ∧ row4.length = 192 ∧
    row5.length = 192 ∧ row6.length = 192 := by decide +kernel

theorem rowN_lt (k : Nat) : ∀ a ∈ rowN k, a < 2 ^ 192 := by
  have h := rows_lt
  simp only [Bool.and_eq_true, List.all_eq_true, decide_eq_true_eq] at h
  obtain ⟨⟨⟨⟨⟨⟨h0, h1⟩, h2⟩, h3⟩, h4⟩, h5⟩, h6⟩ := h
  unfold rowN
  split <;> first | assumption | simp

theorem rowN_len (k : Nat) (hk : k < 7) : (rowN k).length = 192 := by
  obtain ⟨h0, h1, h2, h3, h4, h5, h6⟩ := rows_len
  unfold rowN
  split <;> first | assumption | (exfalso; omega) | (exfalso; simp_all; omega)

theorem rows_geometric (hx : x ^ 192 = bits x 135) : ∀ k, k < 7 → Geometric (x ^ 2 ^ 2 ^ k) 1 ((rowN k).map (bits x)) := by
  have e : ∀ k, 2 ^ (k + 1) = 2 ^ k + 2 ^ k := fun k => by rw [Nat.pow_succ]; omega
  have g0 : Geometric (x ^ 2 ^ 2 ^ 0) 1 ((rowN 0).map (bits x)) := by
    have := squares_geometric x hx row0 1 (by norm_num) chk_squares
    simpa [rowN] using this
  have step : ∀ k (hk : k < 7), Geometric (x ^ 2 ^ 2 ^ k) 1 ((rowN k).map (bits x)) →
      chk (rowN k) (rowN k) (rowN (k + 1)) = true → Geometric (x ^ 2 ^ 2 ^ (k + 1)) 1 ((rowN (k + 1)).map (bits x)) := by
    intro k hk hg hc
    rw [e k]
    exact geometric_step x (2 ^ k) (rowN k) (rowN_len k hk) hg (rowN_lt k) _ hc
  have g1 := step 0 (by omega) g0 chk_row0
  have g2 := step 1 (by omega) g1 chk_row1
  have g3 := step 2 (by omega) g2 chk_row2
  have g4 := step 3 (by omega) g3 chk_row3
  have g5 := step 4 (by omega) g4 chk_row4
  have g6 := step 5 (by omega) g5 chk_row5
  intro k hk
  match k, hk with
  | 0, _ => exact g0
  | 1, _ => exact g1
  | 2, _ => exact g2
  | 3, _ => exact g3
  | 4, _ => exact g4
  | 5, _ => exact g5
  | 6, _ => exact g6

/-! ### The code's table lookup -/

theorem toN_ofNat (a b c : Nat) (h : a + 2 ^ 64 * (b + 2 ^ 64 * c) < 2 ^ 192) (ha : a < 2 ^ 64) (hb : b < 2 ^ 64) :
    toN ⟨BitVec.ofNat 64 a, BitVec.ofNat 64 b, BitVec.ofNat 64 c⟩ = a + 2 ^ 64 * (b + 2 ^ 64 * c) := by
  unfold toN
  simp only [BitVec.toNat_ofNat]
  have hc : c < 2 ^ 64 := by omega
  rw [Nat.mod_eq_of_lt ha, Nat.mod_eq_of_lt hb, Nat.mod_eq_of_lt hc]

theorem tables_lt : ∀ k, k < 7 → (∀ a ∈ powTable0 k, a < 2 ^ 64) ∧ (∀ a ∈ powTable1 k, a < 2 ^ 64) ∧
    (∀ a ∈ powTable2 k, a < 2 ^ 64) := by
  have h : ∀ k, k < 7 → ((powTable0 k).all (fun a => Nat.blt a (2 ^ 64)) && (powTable1 k).all (fun a => Nat.blt a (2 ^ 64)) &&
      (powTable2 k).all (fun a => Nat.blt a (2 ^ 64))) = true := by
    intro k hk
    match k, hk with
    | 0, _ => decide +kernel
    | 1, _ => decide +kernel
    | 2, _ => decide +kernel
    | 3, _ => decide +kernel
    | 4, _ => decide +kernel
    | 5, _ => decide +kernel
    | 6, _ => decide +kernel
  intro k hk
  have := h k hk
  simp only [Bool.and_eq_true, List.all_eq_true, Nat.blt_eq] at this
  exact ⟨this.1.1, this.1.2, this.2⟩

theorem zipWith_toN : ∀ (as bs cs : List Nat), (∀ a ∈ as, a < 2 ^ 64) → (∀ a ∈ bs, a < 2 ^ 64) → (∀ a ∈ cs, a < 2 ^ 64) →
    (as.zipWith (fun a bc => (⟨BitVec.ofNat 64 a, BitVec.ofNat 64 bc.1, BitVec.ofNat 64 bc.2⟩ : Gf)) (bs.zip cs)).map toN =
      as.zipWith (fun a bc => a + 2 ^ 64 * (bc.1 + 2 ^ 64 * bc.2)) (bs.zip cs) := by
  intro as
  induction as with
  | nil => intros; rfl
  | cons a as ih =>
    intro bs cs ha hb hc
    cases bs with
    | nil => rfl
    | cons b bs => cases cs with
      | nil => rfl
      | cons c cs =>
        simp only [List.zip_cons_cons, List.zipWith_cons_cons, List.map_cons]
        rw [ih bs cs (fun y hy => ha y (by simp [hy])) (fun y hy => hb y (by simp [hy])) (fun y hy => hc y (by simp [hy]))]
        have h1 := ha a (by simp); have h2 := hb b (by simp); have h3 := hc c (by simp)
        rw [toN_ofNat a b c (by omega) h1 h2]

theorem powRow_toN (k : Nat) (hk : k < 7) : (powRow k).map toN = rowN k := by
  obtain ⟨h0, h1, h2⟩ := tables_lt k hk
  unfold powRow
  rw [zipWith_toN _ _ _ h0 h1 h2]
  match k, hk with
  | 0, _ => exact words_row0
  | 1, _ => exact words_row1
  | 2, _ => exact words_row2
  | 3, _ => exact words_row3
  | 4, _ => exact words_row4
  | 5, _ => exact words_row5
  | 6, _ => exact words_row6

theorem val_powWord : ∀ (es : List Gf) (w : BitVec 64) (t : Gf),
    val x (powWord es w t) = val x t + lin (es.map (val x)) w.toNat := by
  intro es
  induction es with
  | nil => intro w t; simp [powWord, lin]
  | cons e es ih =>
    intro w t
    rw [powWord]
    have hm : (w &&& 1#64) = if w.toNat % 2 = 1 then 1#64 else 0#64 := by
      apply BitVec.eq_of_toNat_eq
      rw [BitVec.toNat_and]
      have : w.toNat &&& (1#64).toNat = w.toNat % 2 := Nat.and_two_pow_sub_one_eq_mod _ 1
      rw [this]
      rcases Nat.mod_two_eq_zero_or_one w.toNat with h | h <;> rw [h] <;> simp
    simp only [hm]
    rw [ih]
    have hs : (w >>> 1).toNat = w.toNat / 2 := by simp [Nat.shiftRight_eq_div_pow]
    rw [hs, List.map_cons, lin]
    rcases Nat.mod_two_eq_zero_or_one w.toNat with h | h
    · rw [h]; simp
    · rw [h]
      have : (⟨t.w0 ^^^ e.w0 * (if (1 : Nat) = 1 then 1#64 else 0#64), t.w1 ^^^ e.w1 * (if (1 : Nat) = 1 then 1#64 else 0#64),
          t.w2 ^^^ e.w2 * (if (1 : Nat) = 1 then 1#64 else 0#64)⟩ : Gf) = add t e := by simp [add]
      rw [this, val_add]; simp; ring

theorem val_powLin (hx : x ^ 192 = bits x 135) (k : Nat) (hk : k < 7) (z : Gf) :
    val x (powLin k z) = (val x z) ^ 2 ^ 2 ^ k := by
  haveI : Fact (Nat.Prime 2) := ⟨Nat.prime_two⟩
  haveI : ExpChar R 2 := ExpChar.prime Nat.prime_two
  unfold powLin
  simp only [val_powWord, val_zero, zero_add]
  have hlen : (powRow k).length = 192 := by
    have := congrArg List.length (powRow_toN k hk); rw [List.length_map, rowN_len k hk] at this; exact this
  have hmap : (powRow k).map (val x) = (rowN k).map (bits x) := by
    rw [← powRow_toN k hk, List.map_map]; rfl
  have hsplit : (powRow k).map (val x) = (((powRow k).take 64).map (val x)) ++
      ((((powRow k).drop 64).take 64).map (val x) ++ (((powRow k).drop 128).take 64).map (val x)) := by
    rw [← List.map_append, ← List.map_append]
    congr 1
    have h1 : ((powRow k).drop 128).take 64 = (powRow k).drop 128 := by
      apply List.take_of_length_le; simp [hlen]
    rw [h1]
    have h2 : (powRow k).drop 128 = ((powRow k).drop 64).drop 64 := by rw [List.drop_drop]
    rw [h2, List.take_append_drop, List.take_append_drop]
  have l1 : (((powRow k).take 64).map (val x)).length = 64 := by simp [hlen]
  have l2 : ((((powRow k).drop 64).take 64).map (val x)).length = 64 := by simp [hlen]
  have hlin : lin ((powRow k).map (val x)) (toN z) = lin (((powRow k).take 64).map (val x)) z.w0.toNat +
      (lin ((((powRow k).drop 64).take 64).map (val x)) z.w1.toNat +
        lin ((((powRow k).drop 128).take 64).map (val x)) z.w2.toNat) := by
    rw [hsplit]
    unfold toN
    have a1 := lin_append (((powRow k).take 64).map (val x)) ((((powRow k).drop 64).take 64).map (val x) ++
      (((powRow k).drop 128).take 64).map (val x)) z.w0.toNat (z.w1.toNat + 2 ^ 64 * z.w2.toNat)
      (by rw [l1]; exact z.w0.isLt)
    rw [l1] at a1
    have a2 := lin_append ((((powRow k).drop 64).take 64).map (val x)) ((((powRow k).drop 128).take 64).map (val x))
      z.w1.toNat z.w2.toNat (by rw [l2]; exact z.w1.isLt)
    rw [l2] at a2
    rw [a1, a2]
  have : val x z ^ 2 ^ 2 ^ k = lin ((powRow k).map (val x)) (toN z) := by
    rw [hmap, lin_geometric _ _ 1 _ (rows_geometric x hx k hk) (by rw [List.length_map, rowN_len k hk]; exact toN_lt z), one_mul]
    have := map_bits (iterateFrobenius R 2 (2 ^ k)) x (toN z)
    rw [iterateFrobenius_def, iterateFrobenius_def] at this
    exact this
  rw [this, hlin]; ring

end

end Verif.Gf
