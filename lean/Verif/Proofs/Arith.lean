import Verif.Model.Arith
import Verif.Spec.Arith
import Mathlib.Tactic.Ring
import Mathlib.Tactic.Linarith

set_option linter.unusedSimpArgs false
set_option linter.unusedVariables false

/-! # Helper lemmas about the arithmetic of scripts -/

namespace Verif
open Spec
variable {G B : Type}

theorem fits_toInt {n : Nat} (h : 0 < n) (x : BitVec n) : Fits n x.toInt := by
  obtain ⟨m, rfl⟩ : ∃ m, n = m + 1 := ⟨n - 1, by omega⟩
  exact ⟨by simpa using BitVec.le_toInt (x := x), by simpa using BitVec.toInt_lt (x := x)⟩

theorem sdivOverflow_iff {n : Nat} (hn : 0 < n) (a b : BitVec n) (hb : b ≠ 0) :
    a.sdivOverflow b = true ↔ ¬ Fits n (a.toInt.tdiv b.toInt) := by
  have hb' : b.toInt ≠ 0 := fun h => hb (BitVec.toInt_inj.1 (by simpa using h))
  obtain ⟨ha1, ha2⟩ := fits_toInt hn a
  constructor
  · intro h
    rw [BitVec.sdivOverflow_eq] at h
    simp only [Bool.and_eq_true, decide_eq_true_eq] at h
    obtain ⟨⟨_, rfl⟩, rfl⟩ := h
    rw [BitVec.toInt_intMin_of_pos hn, BitVec.toInt_allOnes, if_pos hn]
    intro ⟨_, h⟩
    simp at h
  · intro h
    by_contra hc
    apply h
    rw [← BitVec.toInt_sdiv_of_ne_or_ne]
    · exact fits_toInt hn _
    · rw [BitVec.sdivOverflow_eq] at hc
      by_cases h1 : a = BitVec.intMin n
      · refine .inr fun h2 => hc ?_
        rw [BitVec.neg_one_eq_allOnes] at h2
        simp [h1, h2, hn]
      · exact .inl h1

/-- The operations agree with those on integers. -/
structure NumOps.Exact {α : Type} (o : NumOps G B α) (t : NumTy) (P : α → Prop) (val : α → Int) : Prop where
  range : ∀ a, P a → t.Holds (val a)
  isNum : ∀ a, P a → IsNum (o.wrap a) t (val a)
  ext : ∀ v x, IsNum v t x → ∃ a, o.extract v = .ok a ∧ val a = x ∧ P a
  ext' : ∀ v a, o.extract v = .ok a → v = o.wrap a
  extErr : ∀ v, (∃ a, o.extract v = .ok a) ∨ o.extract v = .err .tryExtract
  add : ∀ a b, P a → P b → (∃ c, o.add a b = some c ∧ val c = val a + val b ∧ P c) ∨
    o.add a b = none ∧ ¬ t.Holds (val a + val b)
  sub : ∀ a b, P a → P b → (∃ c, o.sub a b = some c ∧ val c = val a - val b ∧ P c) ∨
    o.sub a b = none ∧ ¬ t.Holds (val a - val b)
  mul : ∀ a b, P a → P b → (∃ c, o.mul a b = some c ∧ val c = val a * val b ∧ P c) ∨
    o.mul a b = none ∧ ¬ t.Holds (val a * val b)
  div : ∀ a b, P a → P b → (∃ c, o.div a b = some c ∧ val b ≠ 0 ∧ val c = (val a).tdiv (val b) ∧ P c) ∨
    o.div a b = none ∧ (val b = 0 ∨ ¬ t.Holds ((val a).tdiv (val b)))
  neg : ∀ a, P a → (∃ c, o.neg a = some c ∧ val c = - val a ∧ P c) ∨ o.neg a = none ∧ ¬ t.Holds (- val a)
  lt : ∀ a b, o.lt a b = decide (val a < val b)
  le : ∀ a b, o.le a b = decide (val a ≤ val b)

theorem fits_iff_not {n : Nat} {x : Int} : ¬ Fits n x ↔ 2 ^ (n - 1) ≤ x ∨ x < - 2 ^ (n - 1) := by
  unfold Fits; omega

theorem machine_exact {n : Nat} (t : NumTy) (hn : t.bits = n) (extract : Value G B → Res (BitVec n))
    (wrap : BitVec n → Value G B)
    (hw : ∀ a, IsNum (wrap a) t a.toInt)
    (he : ∀ v x, IsNum v t x → ∃ a, extract v = .ok a ∧ a.toInt = x)
    (hi : ∀ v a, extract v = .ok a → v = wrap a)
    (hf : ∀ v, (∃ a, extract v = .ok a) ∨ extract v = .err .tryExtract) :
    (NumOps.machine extract wrap).Exact t (fun _ => True) BitVec.toInt := by
  have hpos : 0 < n := by rw [← hn]; cases t <;> decide
  have hh : ∀ x, t.Holds x ↔ Fits n x := fun x => by rw [NumTy.Holds, hn]
  refine ⟨fun a _ => (hh _).2 (fits_toInt hpos a), fun a _ => hw a, fun v x h => ?_, hi, hf, fun a b _ _ => ?_, fun a b _ _ => ?_,
    fun a b _ _ => ?_, fun a b _ _ => ?_, fun a _ => ?_, fun a b => ?_, fun a b => ?_⟩
  · obtain ⟨a, h1, h2⟩ := he v x h
    exact ⟨a, h1, h2, trivial⟩
  · by_cases h : a.saddOverflow b
    · right
      refine ⟨by simp [NumOps.machine, h], ?_⟩
      rw [hh, fits_iff_not]
      simpa [BitVec.saddOverflow] using h
    · left
      exact ⟨a + b, by simp [NumOps.machine, h], BitVec.toInt_add_of_not_saddOverflow h, trivial⟩
  · by_cases h : a.ssubOverflow b
    · right
      refine ⟨by simp [NumOps.machine, h], ?_⟩
      rw [hh, fits_iff_not]
      simpa [BitVec.ssubOverflow] using h
    · left
      exact ⟨a - b, by simp [NumOps.machine, h], BitVec.toInt_sub_of_not_ssubOverflow h, trivial⟩
  · by_cases h : a.smulOverflow b
    · right
      refine ⟨by simp [NumOps.machine, h], ?_⟩
      rw [hh, fits_iff_not]
      simpa [BitVec.smulOverflow] using h
    · left
      exact ⟨a * b, by simp [NumOps.machine, h], BitVec.toInt_mul_of_not_smulOverflow h, trivial⟩
  · by_cases hb : b = 0
    · right
      refine ⟨by simp [NumOps.machine, hb], .inl ?_⟩
      rw [hb]; simp
    · have hb' : b.toInt ≠ 0 := fun h => hb (BitVec.toInt_inj.1 (by simpa using h))
      by_cases h : a.sdivOverflow b
      · right
        refine ⟨by simp [NumOps.machine, h], .inr ?_⟩
        rw [hh]
        exact (sdivOverflow_iff hpos a b hb).1 h
      · left
        refine ⟨a.sdiv b, ?_, hb', ?_, trivial⟩
        · show (if _ then _ else _) = _
          rw [if_neg (by simp [h, hb]; exact hb)]
        apply BitVec.toInt_sdiv_of_ne_or_ne
        by_cases h1 : a = BitVec.intMin n
        · refine .inr fun h2 => h ?_
          rw [BitVec.sdivOverflow_eq]
          rw [BitVec.neg_one_eq_allOnes] at h2
          simp [h1, h2, hpos]
        · exact .inl h1
  · by_cases h : a.negOverflow
    · right
      refine ⟨by simp [NumOps.machine, h], ?_⟩
      rw [hh]
      simp only [BitVec.negOverflow, beq_iff_eq] at h
      rw [h]
      intro ⟨_, h⟩
      simp at h
    · left
      exact ⟨-a, by simp [NumOps.machine, h], BitVec.toInt_neg_of_not_negOverflow h, trivial⟩
  · simp [NumOps.machine, BitVec.slt]
  · simp [NumOps.machine, BitVec.sle]

theorem bigInt256_some {x : Int} (h : Fits 256 x) : bigInt256 x = some x := by
  unfold bigInt256
  have h : -2 ^ 255 ≤ x ∧ x < 2 ^ 255 := h
  exact if_pos (by omega)

theorem bigInt256_none {x : Int} (h : ¬ Fits 256 x) : bigInt256 x = none := by
  unfold bigInt256
  have h : ¬ (-2 ^ 255 ≤ x ∧ x < 2 ^ 255) := h
  exact if_neg (by omega)

theorem bigInt256_cases (x : Int) :
    (∃ c, bigInt256 x = some c ∧ c = x ∧ Fits 256 c) ∨ bigInt256 x = none ∧ ¬ Fits 256 x := by
  by_cases h : Fits 256 x
  · exact .inl ⟨x, bigInt256_some h, rfl, h⟩
  · exact .inr ⟨bigInt256_none h, h⟩

theorem big_exact : (NumOps.big (G := G) (B := B)).Exact .big (fun a => NumTy.Holds .big a) id := by
  refine ⟨fun a h => h, fun a h => .big a h, fun v x h => ?_, fun v a h => ?_, fun v => ?_, fun a b _ _ => ?_, fun a b _ _ => ?_,
    fun a b _ _ => ?_, fun a b _ _ => ?_, fun a ha => ?_, fun a b => rfl, fun a b => rfl⟩
  · cases h with
    | big _ h => exact ⟨x, rfl, rfl, h⟩
  · cases v <;> simp [NumOps.big, Value.asBigInt] at h ⊢
    exact h
  · cases v <;> simp [NumOps.big, Value.asBigInt]
  · exact bigInt256_cases _
  · exact bigInt256_cases _
  · exact bigInt256_cases _
  · by_cases hb : b = 0
    · exact .inr ⟨by simp [NumOps.big, hb], .inl hb⟩
    · rcases bigInt256_cases (a.tdiv b) with ⟨c, h1, h2, h3⟩ | ⟨h1, h2⟩
      · exact .inl ⟨c, by simpa [NumOps.big, hb] using h1, hb, h2, h3⟩
      · exact .inr ⟨by simpa [NumOps.big, hb] using h1, .inr h2⟩
  · obtain ⟨h1, h2⟩ := ha
    simp only [NumTy.bits] at h1 h2
    by_cases h : a = -2 ^ 255
    · refine .inr ⟨by simp [NumOps.big, h], ?_⟩
      rintro ⟨_, h4⟩
      simp only [id, NumTy.bits, h] at h4
      omega
    · refine .inl ⟨-a, if_neg h, rfl, ?_⟩
      constructor <;> simp only [NumTy.bits] at * <;> omega

/-- What `apply` does when both operands are there, in integers. -/
theorem apply_arith {α : Type} {o : NumOps G B α} {t : NumTy} {P : α → Prop} {val : α → Int} (X : o.Exact t P val)
    {k : BinK} (hk : isArith k = true) {a b : α} (ha : P a) (hb : P b) {rv : Value G B} (hr : o.extract rv = .ok b) :
    match exact k (val a) (val b) with
    | some c => (t.Holds c → ∃ v, o.apply k a rv = .ok v ∧ IsNum v t c) ∧
        (¬ t.Holds c → o.apply k a rv = .err .arithmetic)
    | none => o.apply k a rv = .err .arithmetic := by
  have hlt := X.lt b a
  have fin : ∀ (r : Option α) (x : Int), ((∃ c, r = some c ∧ val c = x ∧ P c) ∨ r = none ∧ ¬ t.Holds x) →
      (t.Holds x → ∃ v, o.finish r = .ok v ∧ IsNum v t x) ∧ (¬ t.Holds x → o.finish r = .err .arithmetic) := by
    intro r x h
    rcases h with ⟨c, rfl, rfl, hc⟩ | ⟨rfl, hx⟩
    · exact ⟨fun _ => ⟨o.wrap c, rfl, X.isNum c hc⟩, fun h => absurd (X.range c hc) h⟩
    · exact ⟨fun h => absurd h hx, fun _ => rfl⟩
  have unf : ∀ k, o.apply k a rv = (match k with
    | .plus => o.finish (o.add a b) | .minus => o.finish (o.sub a b) | .multiply => o.finish (o.mul a b)
    | .divide => o.finish (o.div a b) | .modulo => o.finish (o.rem a b)
    | .max => .ok (o.wrap (if o.lt b a then a else b)) | .min => .ok (o.wrap (if o.lt b a then b else a))
    | .gt => .ok (.bool (o.lt b a)) | .lt => .ok (.bool (o.lt a b)) | .ge => .ok (.bool (o.le b a))
    | .le => .ok (.bool (o.le a b))
    | .bitAnd => .ok (o.wrap (o.bitAnd a b)) | .bitOr => .ok (o.wrap (o.bitOr a b))
    | .bitXor => .ok (o.wrap (o.bitXor a b)) | _ => .err .unexpectedValue) := by
    intro k
    show (o.extract rv).bind _ = _
    rw [hr]
    cases k <;> rfl
  cases k <;> simp only [isArith, Bool.false_eq_true] at hk <;> simp only [exact, unf]
  · exact fin _ _ (X.add a b ha hb)
  · exact fin _ _ (X.sub a b ha hb)
  · exact fin _ _ (X.mul a b ha hb)
  · rcases X.div a b ha hb with ⟨c, h1, h2, h3, h4⟩ | ⟨h1, h2⟩
    · rw [if_neg h2, h1]
      exact fin _ _ (.inl ⟨c, rfl, h3, h4⟩)
    · rw [h1]
      by_cases h0 : val b = 0
      · rw [if_pos h0]; rfl
      · rw [if_neg h0]
        exact fin _ _ (.inr ⟨rfl, h2.resolve_left h0⟩)
  · refine ⟨fun _ => ⟨_, rfl, ?_⟩, fun h => absurd ?_ h⟩
    · rw [hlt]
      by_cases h : val b < val a
      · simp only [h, decide_true, if_true]; rw [max_eq_left (by omega)]; exact X.isNum a ha
      · simp only [h, decide_false]; rw [max_eq_right (by omega)]; exact X.isNum b hb
    · rcases max_choice (val a) (val b) with h | h <;> rw [h]
      · exact X.range a ha
      · exact X.range b hb
  · refine ⟨fun _ => ⟨_, rfl, ?_⟩, fun h => absurd ?_ h⟩
    · rw [hlt]
      by_cases h : val b < val a
      · simp only [h, decide_true, if_true]; rw [min_eq_right (by omega)]; exact X.isNum b hb
      · simp only [h, decide_false]; rw [min_eq_left (by omega)]; exact X.isNum a ha
    · rcases min_choice (val a) (val b) with h | h <;> rw [h]
      · exact X.range a ha
      · exact X.range b hb

theorem apply_compare {α : Type} {o : NumOps G B α} {t : NumTy} {P : α → Prop} {val : α → Int} (X : o.Exact t P val)
    {k : BinK} {a b : α} {rv : Value G B} (hr : o.extract rv = .ok b) {c : Bool}
    (hc : Spec.compare k (val a) (val b) = some c) : o.apply k a rv = .ok (.bool c) := by
  have unf : o.apply k a rv = (o.extract rv).bind _ := rfl
  rw [unf, hr]
  cases k <;> simp only [Spec.compare, Option.some.injEq, reduceCtorEq] at hc <;> subst hc <;>
    simp only [Res.bind, X.lt, X.le]

/-- The operands of one type, uniformly. -/
theorem leftNum_cases {l : Value G B} {t : NumTy} {x : Int} (h : IsNum l t x) :
    ∃ (α : Type) (o : NumOps G B α) (P : α → Prop) (val : α → Int) (a : α), o.Exact t P val ∧ P a ∧ val a = x ∧
      ∀ k, l.leftNum k = some (o.apply k a) := by
  cases h with
  | byte v =>
    refine ⟨BitVec 8, NumOps.machine Value.asByte Value.byte, fun _ => True, BitVec.toInt, v,
      machine_exact (n := 8) .byte rfl _ _ .byte ?_ ?_ ?_, trivial, rfl, fun _ => rfl⟩
    · intro v x h; cases h with | byte v => exact ⟨v, rfl, rfl⟩
    · intro v a h; cases v <;> simp [Value.asByte] at h ⊢; exact h
    · intro v; cases v <;> simp [Value.asByte]
  | short v =>
    refine ⟨BitVec 16, NumOps.machine Value.asShort Value.short, fun _ => True, BitVec.toInt, v,
      machine_exact (n := 16) .short rfl _ _ .short ?_ ?_ ?_, trivial, rfl, fun _ => rfl⟩
    · intro v x h; cases h with | short v => exact ⟨v, rfl, rfl⟩
    · intro v a h; cases v <;> simp [Value.asShort] at h ⊢; exact h
    · intro v; cases v <;> simp [Value.asShort]
  | int v =>
    refine ⟨BitVec 32, NumOps.machine Value.asInt Value.int, fun _ => True, BitVec.toInt, v,
      machine_exact (n := 32) .int rfl _ _ .int ?_ ?_ ?_, trivial, rfl, fun _ => rfl⟩
    · intro v x h; cases h with | int v => exact ⟨v, rfl, rfl⟩
    · intro v a h; cases v <;> simp [Value.asInt] at h ⊢; exact h
    · intro v; cases v <;> simp [Value.asInt]
  | long v =>
    refine ⟨BitVec 64, NumOps.machine Value.asLong Value.long, fun _ => True, BitVec.toInt, v,
      machine_exact (n := 64) .long rfl _ _ .long ?_ ?_ ?_, trivial, rfl, fun _ => rfl⟩
    · intro v x h; cases h with | long v => exact ⟨v, rfl, rfl⟩
    · intro v a h; cases v <;> simp [Value.asLong] at h ⊢; exact h
    · intro v; cases v <;> simp [Value.asLong]
  | big v hv => exact ⟨Int, NumOps.big, fun a => NumTy.Holds .big a, id, x, big_exact, hv, rfl, fun _ => rfl⟩

theorem numTy_ext {v : Value G B} {t t' : NumTy} {x x' : Int} (h : IsNum v t x) (h' : IsNum v t' x') : t = t' ∧ x = x' := by
  cases h <;> cases h' <;> exact ⟨rfl, rfl⟩

/-! ## Remainder -/

theorem binNum_modulo_machine {t : NumTy} (ht : t ≠ .big) {l r : Value G B} {a b : Int} (hl : IsNum l t a) (hr : IsNum r t b)
    (hb : b ≠ 0) (hab : ¬ (a = -2 ^ (t.bits - 1) ∧ b = -1)) :
    ∃ v, l.binNum .modulo r = .ok v ∧ IsNum v t (a.tmod b) := by
  have key : ∀ {n : Nat} (hn : 0 < n) (x y : BitVec n), y.toInt ≠ 0 → ¬ (x.toInt = -2 ^ (n - 1) ∧ y.toInt = -1) →
      ¬ (y = 0 ∨ x.sdivOverflow y) := by
    intro n hn x y h1 h2 h3
    rcases h3 with h3 | h3
    · rw [h3] at h1; simp at h1
    · rw [BitVec.sdivOverflow_eq] at h3
      simp only [Bool.and_eq_true, decide_eq_true_eq] at h3
      obtain ⟨⟨_, rfl⟩, rfl⟩ := h3
      exact h2 ⟨BitVec.toInt_intMin_of_pos hn, by rw [BitVec.toInt_allOnes, if_pos hn]⟩
  cases hl with
  | byte x =>
    cases hr with
    | byte y =>
      have := key (by decide) x y hb hab
      refine ⟨.byte (x.srem y), ?_, ?_⟩
      · show ((NumOps.machine (G := G) (B := B) Value.asByte Value.byte).finish (if _ then _ else _)) = _
        rw [if_neg this]; rfl
      · rw [← BitVec.toInt_srem]; exact .byte _
  | short x =>
    cases hr with
    | short y =>
      have := key (by decide) x y hb hab
      refine ⟨.short (x.srem y), ?_, ?_⟩
      · show ((NumOps.machine (G := G) (B := B) Value.asShort Value.short).finish (if _ then _ else _)) = _
        rw [if_neg this]; rfl
      · rw [← BitVec.toInt_srem]; exact .short _
  | int x =>
    cases hr with
    | int y =>
      have := key (by decide) x y hb hab
      refine ⟨.int (x.srem y), ?_, ?_⟩
      · show ((NumOps.machine (G := G) (B := B) Value.asInt Value.int).finish (if _ then _ else _)) = _
        rw [if_neg this]; rfl
      · rw [← BitVec.toInt_srem]; exact .int _
  | long x =>
    cases hr with
    | long y =>
      have := key (by decide) x y hb hab
      refine ⟨.long (x.srem y), ?_, ?_⟩
      · show ((NumOps.machine (G := G) (B := B) Value.asLong Value.long).finish (if _ then _ else _)) = _
        rw [if_neg this]; rfl
      · rw [← BitVec.toInt_srem]; exact .long _
  | big _ _ => exact absurd rfl ht

theorem binNum_modulo_machine_err {t : NumTy} (ht : t ≠ .big) {l r : Value G B} {a b : Int} (hl : IsNum l t a)
    (hr : IsNum r t b) (h : b = 0 ∨ (a = -2 ^ (t.bits - 1) ∧ b = -1)) :
    l.binNum .modulo r = .err .arithmetic := by
  have key : ∀ {n : Nat} (hn : 0 < n) (x y : BitVec n), (y.toInt = 0 ∨ (x.toInt = -2 ^ (n - 1) ∧ y.toInt = -1)) →
      (y = 0 ∨ x.sdivOverflow y) := by
    intro n hn x y h
    rcases h with h | ⟨h1, h2⟩
    · exact .inl (BitVec.toInt_inj.1 (by simpa using h))
    · right
      rw [BitVec.sdivOverflow_eq]
      have hx : x = BitVec.intMin n := BitVec.toInt_inj.1 (by rw [h1, BitVec.toInt_intMin_of_pos hn])
      have hy : y = BitVec.allOnes n := BitVec.toInt_inj.1 (by rw [h2, BitVec.toInt_allOnes, if_pos hn])
      simp [hx, hy, hn]
  cases hl with
  | byte x =>
    cases hr with
    | byte y =>
      have := key (by decide) x y h
      show ((NumOps.machine (G := G) (B := B) Value.asByte Value.byte).finish (if _ then _ else _)) = _
      rw [if_pos this]; rfl
  | short x =>
    cases hr with
    | short y =>
      have := key (by decide) x y h
      show ((NumOps.machine (G := G) (B := B) Value.asShort Value.short).finish (if _ then _ else _)) = _
      rw [if_pos this]; rfl
  | int x =>
    cases hr with
    | int y =>
      have := key (by decide) x y h
      show ((NumOps.machine (G := G) (B := B) Value.asInt Value.int).finish (if _ then _ else _)) = _
      rw [if_pos this]; rfl
  | long x =>
    cases hr with
    | long y =>
      have := key (by decide) x y h
      show ((NumOps.machine (G := G) (B := B) Value.asLong Value.long).finish (if _ then _ else _)) = _
      rw [if_pos this]; rfl
  | big _ _ => exact absurd rfl ht

/-! ## Digits -/

theorem digit_ofNat (m i : Nat) : digit (m : Int) i = m.testBit i := by
  unfold digit
  rw [Nat.testBit_eq_decide_div_mod_eq]
  congr 1
  rw [eq_iff_iff]
  exact_mod_cast Iff.rfl

theorem digit_negSucc (m i : Nat) : digit (Int.negSucc m) i = !m.testBit i := by
  unfold digit
  rw [Nat.testBit_eq_decide_div_mod_eq, Int.negSucc_ediv _ (by positivity)]
  have h : (m : Int) / 2 ^ i = ((m / 2 ^ i : Nat) : Int) := by push_cast; rfl
  have h' : Int.ediv (m : Int) (2 ^ i) = ((m / 2 ^ i : Nat) : Int) := h
  rw [h']
  generalize m / 2 ^ i = q
  rw [Bool.eq_iff_iff]
  simp only [decide_eq_true_eq, Bool.not_eq_true', decide_eq_false_iff_not]
  omega

theorem digit_eq_testBit (x : Int) (i : Nat) : digit x i = x.testBit i := by
  cases x with
  | ofNat m => exact digit_ofNat m i
  | negSucc m => exact digit_negSucc m i

theorem digit_toInt {n : Nat} (x : BitVec n) (i : Nat) :
    digit x.toInt i = if i < n then x.getLsbD i else x.msb := by
  have hx := x.isLt
  unfold digit
  rw [BitVec.toInt_eq_msb_cond]
  by_cases hi : i < n
  · rw [if_pos hi, BitVec.getLsbD, Nat.testBit_eq_decide_div_mod_eq]
    have hp : (2 : Int) ^ n = 2 ^ i * (2 * 2 ^ (n - i - 1)) := by
      rw [← pow_succ', ← pow_add]; congr 1; omega
    have hq : (x.toNat : Int) / 2 ^ i = ((x.toNat / 2 ^ i : Nat) : Int) := by push_cast; rfl
    rw [Bool.eq_iff_iff]
    simp only [decide_eq_true_eq]
    split
    · push_cast
      rw [hp, Int.sub_mul_ediv_left _ _ (by positivity), hq]
      generalize x.toNat / 2 ^ i = q
      generalize (2 : Int) ^ (n - i - 1) = p
      omega
    · rw [hq]
      generalize x.toNat / 2 ^ i = q
      omega
  · rw [if_neg hi]
    have hle : 2 ^ n ≤ 2 ^ i := Nat.pow_le_pow_right (by decide) (by omega)
    have hle' : (2 : Int) ^ n ≤ 2 ^ i := by exact_mod_cast hle
    have hx' : (x.toNat : Int) < 2 ^ n := by exact_mod_cast hx
    have hp : (0 : Int) < 2 ^ i := by positivity
    cases hm : x.msb
    · simp only [Bool.false_eq_true, if_false, decide_eq_false_iff_not]
      rw [Int.ediv_eq_zero_of_lt (by omega) (by omega)]
      decide
    · simp only [if_true, decide_eq_true_eq]
      have : ((x.toNat : Int) - ((2 ^ n : Nat) : Int)) / 2 ^ i = -1 := by
        push_cast
        rw [Int.ediv_eq_iff_of_pos hp]
        constructor <;> omega
      rw [this]; decide

theorem fits_of_digits {n : Nat} (hn : 0 < n) {x : Int} (s : Bool) (h : ∀ i, n - 1 ≤ i → digit x i = s) : Fits n x := by
  cases x with
  | ofNat m =>
    have hs : s = false := by
      have := h (max m (n - 1)) (le_max_right _ _)
      rw [show Int.ofNat m = (m : Int) from rfl, digit_ofNat,
        Nat.testBit_lt_two_pow (lt_of_le_of_lt (le_max_left m (n - 1)) Nat.lt_two_pow_self)] at this
      exact this.symm
    have : m < 2 ^ (n - 1) := by
      apply Nat.lt_pow_two_of_testBit
      intro i hi
      rw [← digit_ofNat]
      exact (h i hi).trans hs
    refine ⟨?_, ?_⟩
    · have : (0 : Int) ≤ 2 ^ (n - 1) := by positivity
      have h2 : (0 : Int) ≤ Int.ofNat m := Int.natCast_nonneg m
      omega
    · show (m : Int) < _
      exact_mod_cast this
  | negSucc m =>
    have hs : s = true := by
      have := h (max m (n - 1)) (le_max_right _ _)
      rw [digit_negSucc,
        Nat.testBit_lt_two_pow (lt_of_le_of_lt (le_max_left m (n - 1)) Nat.lt_two_pow_self)] at this
      exact this.symm
    have : m < 2 ^ (n - 1) := by
      apply Nat.lt_pow_two_of_testBit
      intro i hi
      have := h i hi
      rw [digit_negSucc, hs] at this
      simpa using this
    have h2 : (m : Int) < 2 ^ (n - 1) := by exact_mod_cast this
    rw [Int.negSucc_eq]
    constructor <;> omega

theorem digits_of_fits {n : Nat} {x : Int} (h : Fits n x) {i : Nat} (hi : n - 1 ≤ i) : digit x i = decide (x < 0) := by
  obtain ⟨h1, h2⟩ := h
  have hle : (2 : Int) ^ (n - 1) ≤ 2 ^ i := by exact_mod_cast Nat.pow_le_pow_right (by decide) hi
  have hp : (0 : Int) < 2 ^ i := by positivity
  unfold digit
  by_cases hx : x < 0
  · have : x / 2 ^ i = -1 := by
      rw [Int.ediv_eq_iff_of_pos hp]
      constructor <;> omega
    rw [this]; simp [hx]
  · rw [Int.ediv_eq_zero_of_lt (by omega) (by omega)]
    simp [hx]

theorem digit_bitFn_big {k : BinK} {f : Bool → Bool → Bool} (hf : bitFn k = some f) {a b : Int}
    (ha : NumTy.Holds .big a) (hb : NumTy.Holds .big b) :
    ∃ c, (NumOps.big (G := G) (B := B)).apply k a (.bigInt b) = .ok (.bigInt c) ∧ NumTy.Holds .big c ∧
      ∀ i, digit c i = f (digit a i) (digit b i) := by
  have rng : ∀ c, (∀ i, digit c i = f (digit a i) (digit b i)) → NumTy.Holds .big c := by
    intro c h
    refine fits_of_digits (by decide) (f (decide (a < 0)) (decide (b < 0))) fun i hi => ?_
    rw [h, digits_of_fits ha hi, digits_of_fits hb hi]
  cases k <;> simp only [bitFn, Option.some.injEq, reduceCtorEq] at hf <;> subst hf
  · refine ⟨a.lor b, rfl, ?_⟩
    have h : ∀ i, digit (a.lor b) i = (digit a i || digit b i) := fun i => by
      rw [digit_eq_testBit, digit_eq_testBit, digit_eq_testBit]; exact Int.testBit_lor a b i
    exact ⟨rng _ h, h⟩
  · refine ⟨a.land b, rfl, ?_⟩
    have h : ∀ i, digit (a.land b) i = (digit a i && digit b i) := fun i => by
      rw [digit_eq_testBit, digit_eq_testBit, digit_eq_testBit]; exact Int.testBit_land a b i
    exact ⟨rng _ h, h⟩
  · refine ⟨a.xor b, rfl, ?_⟩
    have h : ∀ i, digit (a.xor b) i = (digit a i ^^ digit b i) := fun i => by
      rw [digit_eq_testBit, digit_eq_testBit, digit_eq_testBit]; exact Int.testBit_lxor a b i
    exact ⟨rng _ h, h⟩

theorem digit_bitFn_machine {n : Nat} {k : BinK} {f : Bool → Bool → Bool} (hf : bitFn k = some f)
    {extract : Value G B → Res (BitVec n)} {wrap : BitVec n → Value G B} (x y : BitVec n) {rv : Value G B}
    (hr : extract rv = .ok y) :
    ∃ c : BitVec n, (NumOps.machine extract wrap).apply k x rv = .ok (wrap c) ∧
      ∀ i, digit c.toInt i = f (digit x.toInt i) (digit y.toInt i) := by
  have unf : (NumOps.machine extract wrap).apply k x rv = (extract rv).bind _ := rfl
  rw [unf, hr]
  cases k <;> simp only [bitFn, Option.some.injEq, reduceCtorEq] at hf <;> subst hf
  · refine ⟨x ||| y, rfl, fun i => ?_⟩
    rw [digit_toInt, digit_toInt, digit_toInt]
    split <;> simp
  · refine ⟨x &&& y, rfl, fun i => ?_⟩
    rw [digit_toInt, digit_toInt, digit_toInt]
    split <;> simp
  · refine ⟨x ^^^ y, rfl, fun i => ?_⟩
    rw [digit_toInt, digit_toInt, digit_toInt]
    split <;> simp

end Verif
