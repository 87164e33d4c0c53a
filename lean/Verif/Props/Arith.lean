import Verif.Proofs.EvalM
import Verif.Proofs.ArithBytes

set_option linter.unusedSimpArgs false
set_option linter.unusedVariables false

/-!
# C35, C36: arithmetic of scripts

`IsNum v t x` says that the value `v` is the integer `x` of the number type `t`; every number of the interpreter is one
(`NumTy.Holds .big` is the range of `BigInt256`).
-/

namespace Verif
open Spec
variable {G B T : Type}

/-- C35: `+`, `-`, `*`, `/`, `max` and `min` of two numbers of one type give the exact result if it is a number of the type, and
the arithmetic error otherwise (also for a division by zero).  Nothing wraps. -/
theorem C35_arith_exact (k : BinK) (hk : isArith k = true) (t : NumTy) (l r : Value G B) (a b : Int)
    (hl : IsNum l t a) (hr : IsNum r t b) :
    match exact k a b with
    | some c => (t.Holds c → ∃ v, l.binNum k r = .ok v ∧ IsNum v t c) ∧ (¬ t.Holds c → l.binNum k r = .err .arithmetic)
    | none => l.binNum k r = .err .arithmetic := by
  obtain ⟨α, o, P, val, x, X, hx, rfl, hf⟩ := leftNum_cases hl
  obtain ⟨y, hy, rfl, hP⟩ := X.ext r b hr
  have := apply_arith X hk hx hP hy
  have e : l.binNum k r = o.apply k x r := by unfold Value.binNum; rw [hf]
  rw [e]
  exact this

example : (Value.int 2147483647 : Value G B).binNum .plus (.int 1) = .err .arithmetic :=
  ((C35_arith_exact .plus rfl .int _ _ 2147483647 1 (.int 2147483647) (.int 1)).2
    (by unfold NumTy.Holds Fits NumTy.bits; decide))

example : ∃ v : Value G B, (Value.byte (-100) : Value G B).binNum .divide (.byte 7) = .ok v ∧ IsNum v .byte (-14) :=
  (C35_arith_exact .divide rfl .byte _ _ (-100) 7 (.byte (-100)) (.byte 7)).1
    (by unfold NumTy.Holds Fits NumTy.bits; decide)

/-- C35: a result is never anything but the exact one: whatever value comes out is a number of the same type with the exact
value. -/
theorem C35_never_wraps (k : BinK) (hk : isArith k = true) (t : NumTy) (l r v : Value G B) (a b : Int)
    (hl : IsNum l t a) (hr : IsNum r t b) (hv : l.binNum k r = .ok v) : ∃ c, exact k a b = some c ∧ t.Holds c ∧ IsNum v t c := by
  have h := C35_arith_exact k hk t l r a b hl hr
  cases he : exact k a b with
  | none => rw [he] at h; rw [h] at hv; cases hv
  | some c =>
    rw [he] at h
    by_cases hc : t.Holds c
    · obtain ⟨v', h1, h2⟩ := h.1 hc
      rw [h1] at hv
      cases hv
      exact ⟨c, rfl, hc, h2⟩
    · rw [h.2 hc] at hv; cases hv

/-- C35: comparisons of two numbers of one type are those of the integers. -/
theorem C35_compare (k : BinK) (t : NumTy) (l r : Value G B) (a b : Int) (hl : IsNum l t a) (hr : IsNum r t b) (c : Bool)
    (hc : Spec.compare k a b = some c) : l.binNum k r = .ok (.bool c) := by
  obtain ⟨α, o, P, val, x, X, hx, rfl, hf⟩ := leftNum_cases hl
  obtain ⟨y, hy, rfl, hP⟩ := X.ext r b hr
  have e : l.binNum k r = o.apply k x r := by unfold Value.binNum; rw [hf]
  rw [e]
  exact apply_compare X hy hc

example : (Value.long (-1) : Value G B).binNum .lt (.long 0) = .ok (.bool true) :=
  C35_compare .lt .long _ _ (-1) 0 (.long (-1)) (.long 0) true rfl

/-- C35: `%` of machine integers is the remainder of the truncated division; it fails exactly for a zero divisor and for
`MIN % -1` (whose exact result, 0, exists: see `C35_violation_min_rem`). -/
theorem C35_remainder (t : NumTy) (ht : t ≠ .big) (l r : Value G B) (a b : Int) (hl : IsNum l t a) (hr : IsNum r t b) :
    (b ≠ 0 ∧ ¬ (a = -2 ^ (t.bits - 1) ∧ b = -1) → ∃ v, l.binNum .modulo r = .ok v ∧ IsNum v t (a.tmod b)) ∧
    (b = 0 ∨ a = -2 ^ (t.bits - 1) ∧ b = -1 → l.binNum .modulo r = .err .arithmetic) :=
  ⟨fun h => binNum_modulo_machine ht hl hr h.1 h.2, fun h => binNum_modulo_machine_err ht hl hr h⟩

example : ∃ v : Value G B, (Value.int (-7) : Value G B).binNum .modulo (.int 2) = .ok v ∧ IsNum v .int (-1) :=
  (C35_remainder .int (by decide) _ _ (-7) 2 (.int (-7)) (.int 2)).1 (by decide)

/-- C35: `%` of big integers is the non-negative remainder; it fails exactly for divisors that are not positive. -/
theorem C35_remainder_big (l r : Value G B) (a b : Int) (hl : IsNum l .big a) (hr : IsNum r .big b) :
    (0 < b → ∃ v c, l.binNum .modulo r = .ok v ∧ IsNum v .big c ∧ 0 ≤ c ∧ c < b ∧ ∃ q, a = q * b + c) ∧
    (b ≤ 0 → l.binNum .modulo r = .err .arithmetic) := by
  cases hl with
  | big _ ha =>
    cases hr with
    | big _ hb =>
      constructor
      · intro h
        have h0 : 0 ≤ a.fmod b := Int.fmod_nonneg_of_pos a h
        have h1 : a.fmod b < b := Int.fmod_lt_of_pos a h
        refine ⟨.bigInt (a.fmod b), a.fmod b, ?_, .big _ ⟨?_, ?_⟩, h0, h1, a.fdiv b, ?_⟩
        · show (NumOps.big (G := G) (B := B)).finish (if b ≤ 0 then none else some (a.fmod b)) = _
          rw [if_neg (by omega)]; rfl
        · have : (0 : Int) ≤ 2 ^ (NumTy.bits .big - 1) := by positivity
          omega
        · exact lt_trans h1 hb.2
        · have := Int.fmod_add_mul_fdiv a b
          rw [mul_comm]; omega
      · intro h
        show (NumOps.big (G := G) (B := B)).finish (if b ≤ 0 then none else some (a.fmod b)) = _
        rw [if_pos h]; rfl

example : ∃ (v : Value G B) (c : Int), (Value.bigInt (-7) : Value G B).binNum .modulo (.bigInt 2) = .ok v ∧ IsNum v .big c ∧
    0 ≤ c ∧ c < 2 ∧ ∃ q, (-7 : Int) = q * 2 + c :=
  (C35_remainder_big _ _ (-7) 2 (.big (-7) (by unfold NumTy.Holds Fits NumTy.bits; decide))
    (.big 2 (by unfold NumTy.Holds Fits NumTy.bits; decide))).1 (by decide)

/-- C35, violation: the exact result of `MIN % -1` is 0, a number of every type, but machine integers refuse it; and the
remainders of machine integers and big integers differ for the same numbers (`-7 % 2`). -/
theorem C35_violation_min_rem :
    (∀ t : NumTy, t ≠ .big → ∀ l r : Value G B, IsNum l t (-2 ^ (t.bits - 1)) → IsNum r t (-1) →
      l.binNum .modulo r = .err .arithmetic ∧ (-2 ^ (t.bits - 1) : Int).tmod (-1) = 0 ∧ t.Holds 0) ∧
    (Value.int (-7) : Value G B).binNum .modulo (.int 2) = .ok (.int (-1)) ∧
    (Value.bigInt (-7) : Value G B).binNum .modulo (.bigInt 2) = .ok (.bigInt 1) := by
  refine ⟨fun t ht l r hl hr => ⟨(C35_remainder t ht l r _ _ hl hr).2 (.inr ⟨rfl, rfl⟩), ?_, ?_⟩, rfl, rfl⟩
  · simp
  · have : (0 : Int) < 2 ^ (t.bits - 1) := by positivity
    constructor <;> omega

/-- C35: the bitwise operations act on every digit of the (infinite) two's complement of the numbers. -/
theorem C35_bitwise (k : BinK) (f : Bool → Bool → Bool) (hf : bitFn k = some f) (t : NumTy) (l r : Value G B) (a b : Int)
    (hl : IsNum l t a) (hr : IsNum r t b) :
    ∃ v c, l.binNum k r = .ok v ∧ IsNum v t c ∧ ∀ i, digit c i = f (digit a i) (digit b i) := by
  cases hl with
  | byte x =>
    cases hr with
    | byte y =>
      obtain ⟨c, h1, h2⟩ := digit_bitFn_machine (G := G) (B := B) (extract := Value.asByte) (wrap := Value.byte) hf x y (rv := .byte y) rfl
      exact ⟨.byte c, c.toInt, h1, .byte c, h2⟩
  | short x =>
    cases hr with
    | short y =>
      obtain ⟨c, h1, h2⟩ := digit_bitFn_machine (G := G) (B := B) (extract := Value.asShort) (wrap := Value.short) hf x y (rv := .short y) rfl
      exact ⟨.short c, c.toInt, h1, .short c, h2⟩
  | int x =>
    cases hr with
    | int y =>
      obtain ⟨c, h1, h2⟩ := digit_bitFn_machine (G := G) (B := B) (extract := Value.asInt) (wrap := Value.int) hf x y (rv := .int y) rfl
      exact ⟨.int c, c.toInt, h1, .int c, h2⟩
  | long x =>
    cases hr with
    | long y =>
      obtain ⟨c, h1, h2⟩ := digit_bitFn_machine (G := G) (B := B) (extract := Value.asLong) (wrap := Value.long) hf x y (rv := .long y) rfl
      exact ⟨.long c, c.toInt, h1, .long c, h2⟩
  | big _ ha =>
    cases hr with
    | big _ hb =>
      obtain ⟨c, h1, h2, h3⟩ := digit_bitFn_big (G := G) (B := B) hf ha hb
      exact ⟨.bigInt c, c, h1, .big c h2, h3⟩

example : (Value.byte (-2) : Value G B).binNum .bitAnd (.byte 7) = .ok (.byte 6) ∧ digit (-2) 0 = false ∧ digit (-2) 9 = true :=
  ⟨rfl, by decide, by decide⟩

/-- C35: bit inversion flips every digit. -/
theorem C35_invert (t : NumTy) (v : Value G B) (a : Int) (hv : IsNum v t a) :
    ∃ w c, v.invert = .ok w ∧ IsNum w t c ∧ ∀ i, digit c i = !digit a i := by
  have m : ∀ {n : Nat} (hn : 0 < n) (x : BitVec n) (i : Nat), digit (~~~x).toInt i = !digit x.toInt i := by
    intro n hn x i
    rw [digit_toInt, digit_toInt]
    split
    · simp [*]
    · rw [BitVec.msb_not]; simp [hn]
  cases hv with
  | byte x => exact ⟨_, _, rfl, .byte _, m (by decide) x⟩
  | short x => exact ⟨_, _, rfl, .short _, m (by decide) x⟩
  | int x => exact ⟨_, _, rfl, .int _, m (by decide) x⟩
  | long x => exact ⟨_, _, rfl, .long _, m (by decide) x⟩
  | big _ ha =>
    have h : ∀ i, digit a.lnot i = !digit a i := fun i => by
      rw [digit_eq_testBit, digit_eq_testBit]; exact Int.testBit_lnot a i
    refine ⟨_, _, rfl, .big _ (fits_of_digits (by decide) (!decide (a < 0)) fun i hi => ?_), h⟩
    rw [h, digits_of_fits ha hi]

example : (Value.long 5 : Value G B).invert = .ok (.long (-6)) := rfl

/-- C35: negation is exact, or the arithmetic error when the result is not a number of the type. -/
theorem C35_negate (t : NumTy) (v : Value G B) (a : Int) (hv : IsNum v t a) :
    (t.Holds (-a) → ∃ w, v.negate = .ok w ∧ IsNum w t (-a)) ∧ (¬ t.Holds (-a) → v.negate = .err .arithmetic) := by
  have fin : ∀ {α : Type} {o : NumOps G B α} {P : α → Prop} {val : α → Int} (X : o.Exact t P val) (x : α), P x → val x = a →
      v.negate = o.finish (o.neg x) →
      (t.Holds (-a) → ∃ w, v.negate = .ok w ∧ IsNum w t (-a)) ∧ (¬ t.Holds (-a) → v.negate = .err .arithmetic) := by
    intro α o P val X x hx hxa e
    subst hxa
    rw [e]
    rcases X.neg x hx with ⟨c, h1, h2, h3⟩ | ⟨h1, h2⟩
    · rw [h1, ← h2]
      exact ⟨fun _ => ⟨o.wrap c, rfl, X.isNum c h3⟩, fun h => absurd (X.range c h3) h⟩
    · rw [h1]
      exact ⟨fun h => absurd h h2, fun _ => rfl⟩
  cases hv with
  | byte x =>
    refine fin (machine_exact (n := 8) .byte rfl Value.asByte Value.byte .byte ?_ ?_ ?_) x trivial rfl rfl
    · intro v x h; cases h with | byte v => exact ⟨v, rfl, rfl⟩
    · intro v a h; cases v <;> simp [Value.asByte] at h ⊢; exact h
    · intro v; cases v <;> simp [Value.asByte]
  | short x =>
    refine fin (machine_exact (n := 16) .short rfl Value.asShort Value.short .short ?_ ?_ ?_) x trivial rfl rfl
    · intro v x h; cases h with | short v => exact ⟨v, rfl, rfl⟩
    · intro v a h; cases v <;> simp [Value.asShort] at h ⊢; exact h
    · intro v; cases v <;> simp [Value.asShort]
  | int x =>
    refine fin (machine_exact (n := 32) .int rfl Value.asInt Value.int .int ?_ ?_ ?_) x trivial rfl rfl
    · intro v x h; cases h with | int v => exact ⟨v, rfl, rfl⟩
    · intro v a h; cases v <;> simp [Value.asInt] at h ⊢; exact h
    · intro v; cases v <;> simp [Value.asInt]
  | long x =>
    refine fin (machine_exact (n := 64) .long rfl Value.asLong Value.long .long ?_ ?_ ?_) x trivial rfl rfl
    · intro v x h; cases h with | long v => exact ⟨v, rfl, rfl⟩
    · intro v a h; cases v <;> simp [Value.asLong] at h ⊢; exact h
    · intro v; cases v <;> simp [Value.asLong]
  | big _ h => exact fin big_exact a h rfl rfl

example : (Value.byte (-128) : Value G B).negate = .err .arithmetic :=
  (C35_negate .byte _ _ (.byte (-128))).2 (by unfold NumTy.Holds Fits NumTy.bits; decide)

/-- C35: a right operand that is not a number of the type of the left one is refused, as is a left operand that is not a
number. -/
theorem C35_mixed_refused (k : BinK) (l r : Value G B) :
    (∀ t, numTy l = some t → numTy r ≠ some t → l.binNum k r = .err .tryExtract) ∧
    (numTy l = none → l.binNum k r = .err .unexpectedValue) := by
  constructor
  · intro t hl hr
    cases l <;> simp only [numTy, reduceCtorEq, Option.some.injEq] at hl <;> subst hl <;>
      cases r <;> first | rfl | exact absurd rfl hr
  · intro hl
    cases l <;> first | rfl | cases hl

example : (Value.int 1 : Value G B).binNum .plus (.long 1) = .err .tryExtract :=
  (C35_mixed_refused .plus (.int 1) (.long 1)).1 .int rfl (by simp [numTy])

/-- C35: an upcast keeps the number and is done exactly along the order Byte, Short, Int, Long, BigInt. -/
theorem C35_upcast (s t : NumTy) (v : Value G B) (a : Int) (hv : IsNum v s a) :
    (s.rank ≤ t.rank → ∃ w, Value.upcast t.stype v = .ok w ∧ IsNum w t a) ∧
    (t.rank < s.rank → Value.upcast t.stype v = .err .unexpectedValue) := by
  have big : ∀ (n : Nat) (h1 : 0 < n) (hn : n ≤ 64) (x : BitVec n), NumTy.Holds .big x.toInt := by
    intro n h1 hn x
    obtain ⟨h3, h4⟩ := fits_toInt h1 x
    have : (2 : Int) ^ (n - 1) ≤ 2 ^ 255 := by exact_mod_cast Nat.pow_le_pow_right (by decide) (by omega : n - 1 ≤ 255)
    constructor <;> simp only [NumTy.bits] <;> omega
  have se : ∀ (n m : Nat) (h : n ≤ m) (x : BitVec n), x.toInt = (x.signExtend m).toInt :=
    fun n m h x => (BitVec.toInt_signExtend_of_le h).symm
  refine ⟨fun h => ?_, fun h => ?_⟩
  · cases hv with
    | byte x =>
      cases t
      · exact ⟨_, rfl, .byte x⟩
      · exact ⟨_, rfl, by rw [se 8 16 (by decide) x]; exact .short _⟩
      · exact ⟨_, rfl, by rw [se 8 32 (by decide) x]; exact .int _⟩
      · exact ⟨_, rfl, by rw [se 8 64 (by decide) x]; exact .long _⟩
      · exact ⟨_, rfl, .big _ (big 8 (by decide) (by decide) x)⟩
    | short x =>
      cases t
      · exact absurd h (by decide)
      · exact ⟨_, rfl, .short x⟩
      · exact ⟨_, rfl, by rw [se 16 32 (by decide) x]; exact .int _⟩
      · exact ⟨_, rfl, by rw [se 16 64 (by decide) x]; exact .long _⟩
      · exact ⟨_, rfl, .big _ (big 16 (by decide) (by decide) x)⟩
    | int x =>
      cases t
      · exact absurd h (by decide)
      · exact absurd h (by decide)
      · exact ⟨_, rfl, .int x⟩
      · exact ⟨_, rfl, by rw [se 32 64 (by decide) x]; exact .long _⟩
      · exact ⟨_, rfl, .big _ (big 32 (by decide) (by decide) x)⟩
    | long x =>
      cases t
      · exact absurd h (by decide)
      · exact absurd h (by decide)
      · exact absurd h (by decide)
      · exact ⟨_, rfl, .long x⟩
      · exact ⟨_, rfl, .big _ (big 64 (by decide) (by decide) x)⟩
    | big _ ha =>
      cases t
      · exact absurd h (by decide)
      · exact absurd h (by decide)
      · exact absurd h (by decide)
      · exact absurd h (by decide)
      · exact ⟨_, rfl, .big _ ha⟩
  · cases hv <;> cases t <;> first | rfl | exact absurd h (by decide)

example : ∃ w : Value G B, Value.upcast .long (.byte (-3)) = .ok w ∧ IsNum w .long (-3) :=
  (C35_upcast .byte .long _ (-3) (.byte (-3))).1 (by decide)

/-- C35: a downcast never changes the number: whatever comes out is the same number in the new type; and it does come out whenever a
machine integer is cast to a smaller (or its own) type that has room for it.  Numbers out of range are refused. -/
theorem C35_downcast (s t : NumTy) (v : Value G B) (a : Int) (hv : IsNum v s a) :
    (∀ w, Value.downcast t.stype v = .ok w → IsNum w t a) ∧
    (t.rank ≤ s.rank → s ≠ .big → t.Holds a → ∃ w, Value.downcast t.stype v = .ok w ∧ IsNum w t a) ∧
    (¬ t.Holds a → Value.downcast t.stype v = .err .unexpectedValue) := by
  have big : ∀ (n : Nat) (h1 : 0 < n) (hn : n ≤ 64) (x : BitVec n), NumTy.Holds .big x.toInt := by
    intro n h1 hn x
    obtain ⟨h3, h4⟩ := fits_toInt h1 x
    have : (2 : Int) ^ (n - 1) ≤ 2 ^ 255 := by exact_mod_cast Nat.pow_le_pow_right (by decide) (by omega : n - 1 ≤ 255)
    constructor <;> simp only [NumTy.bits] <;> omega
  have up : ∀ (n m : Nat) (h0 : 0 < n) (h : n ≤ m) (x : BitVec n), Fits m x.toInt := by
    intro n m h0 h x
    rw [← BitVec.toInt_signExtend_of_le h]
    exact fits_toInt (by omega) _
  have se : ∀ (n m : Nat) (h : n ≤ m) (x : BitVec n), x.toInt = (x.signExtend m).toInt :=
    fun n m h x => (BitVec.toInt_signExtend_of_le h).symm
  have nar : ∀ (n m : Nat) (hm : 0 < m) (h : m ≤ n) (x : BitVec n), Fits m x.toInt → x.toInt = (x.setWidth m).toInt := by
    intro n m hm h x hx
    obtain ⟨h1, h2⟩ := hx
    rw [← BitVec.signExtend_eq_setWidth_of_le _ h, BitVec.toInt_signExtend_eq_toInt_bmod_of_le _ h]
    obtain ⟨k, rfl⟩ : ∃ k, m = k + 1 := ⟨m - 1, by omega⟩
    simp only [Nat.add_one_sub_one] at h1 h2
    rw [Int.bmod_eq_of_le]
    · push_cast; rw [pow_succ]; omega
    · push_cast; rw [pow_succ]; omega
  have nok : ∀ (n m : Nat) (hm : 0 < m) (h : m ≤ n) (t : NumTy) (ht : t.bits = m) (wrap : BitVec m → Value G B)
      (hw : ∀ y, IsNum (wrap y) t y.toInt) (x : BitVec n),
      (∀ w, Value.narrow m wrap x = .ok w → IsNum w t x.toInt) ∧
      (t.Holds x.toInt → ∃ w, Value.narrow m wrap x = .ok w ∧ IsNum w t x.toInt) ∧
      (¬ t.Holds x.toInt → Value.narrow m wrap x = .err .unexpectedValue) := by
    intro n m hm h t ht wrap hw x
    by_cases hx : Fits m x.toInt
    · have e : Value.narrow m wrap x = .ok (wrap (x.setWidth m)) := if_pos hx
      have hn : IsNum (wrap (x.setWidth m)) t x.toInt := by rw [nar n m hm h x hx]; exact hw _
      rw [e]
      exact ⟨fun w hw => by cases hw; exact hn, fun _ => ⟨_, rfl, hn⟩, fun h => absurd (by rw [NumTy.Holds, ht]; exact hx) h⟩
    · have e : Value.narrow m wrap x = .err .unexpectedValue := if_neg hx
      rw [e]
      exact ⟨fun w hw => (by cases hw), fun h => absurd (by rw [NumTy.Holds, ht] at h; exact h) hx, fun _ => rfl⟩
  have tri : ∀ w : Value G B, Value.downcast t.stype v = .ok w → IsNum w t a → t.Holds a →
      (∀ w, Value.downcast t.stype v = .ok w → IsNum w t a) ∧
      (t.rank ≤ s.rank → s ≠ .big → t.Holds a → ∃ w, Value.downcast t.stype v = .ok w ∧ IsNum w t a) ∧
      (¬ t.Holds a → Value.downcast t.stype v = .err .unexpectedValue) := by
    intro w h1 h2 h3
    rw [h1]
    exact ⟨fun w' h => by cases h; exact h2, fun _ _ _ => ⟨w, rfl, h2⟩, fun h => absurd h3 h⟩
  have ref : ∀ (h : Value.downcast t.stype v = .err .unexpectedValue) (h' : ¬ (t.rank ≤ s.rank ∧ s ≠ .big)),
      (∀ w, Value.downcast t.stype v = .ok w → IsNum w t a) ∧
      (t.rank ≤ s.rank → s ≠ .big → t.Holds a → ∃ w, Value.downcast t.stype v = .ok w ∧ IsNum w t a) ∧
      (¬ t.Holds a → Value.downcast t.stype v = .err .unexpectedValue) := by
    intro h h'
    rw [h]
    exact ⟨fun w hw => (by cases hw), fun h1 h2 => absurd ⟨h1, h2⟩ h', fun _ => rfl⟩
  have pack : ∀ {p q r : Prop}, (p ∧ q ∧ r) → (p ∧ (t.rank ≤ s.rank → s ≠ .big → q) ∧ r) :=
    fun h => ⟨h.1, fun _ _ => h.2.1, h.2.2⟩
  cases hv with
  | byte x =>
    cases t
    · exact tri _ rfl (.byte x) (fits_toInt (by decide) x)
    · exact ref rfl (by decide)
    · exact tri _ rfl (by rw [se 8 32 (by decide) x]; exact .int _) (up 8 32 (by decide) (by decide) x)
    · exact tri _ rfl (by rw [se 8 64 (by decide) x]; exact .long _) (up 8 64 (by decide) (by decide) x)
    · exact tri _ rfl (.big _ (big 8 (by decide) (by decide) x)) (big 8 (by decide) (by decide) x)
  | short x =>
    cases t
    · exact pack (nok 16 8 (by decide) (by decide) .byte rfl Value.byte .byte x)
    · exact tri _ rfl (.short x) (fits_toInt (by decide) x)
    · exact tri _ rfl (by rw [se 16 32 (by decide) x]; exact .int _) (up 16 32 (by decide) (by decide) x)
    · exact tri _ rfl (by rw [se 16 64 (by decide) x]; exact .long _) (up 16 64 (by decide) (by decide) x)
    · exact tri _ rfl (.big _ (big 16 (by decide) (by decide) x)) (big 16 (by decide) (by decide) x)
  | int x =>
    cases t
    · exact pack (nok 32 8 (by decide) (by decide) .byte rfl Value.byte .byte x)
    · exact pack (nok 32 16 (by decide) (by decide) .short rfl Value.short .short x)
    · exact tri _ rfl (.int x) (fits_toInt (by decide) x)
    · exact tri _ rfl (by rw [se 32 64 (by decide) x]; exact .long _) (up 32 64 (by decide) (by decide) x)
    · exact tri _ rfl (.big _ (big 32 (by decide) (by decide) x)) (big 32 (by decide) (by decide) x)
  | long x =>
    cases t
    · exact pack (nok 64 8 (by decide) (by decide) .byte rfl Value.byte .byte x)
    · exact pack (nok 64 16 (by decide) (by decide) .short rfl Value.short .short x)
    · exact pack (nok 64 32 (by decide) (by decide) .int rfl Value.int .int x)
    · exact tri _ rfl (.long x) (fits_toInt (by decide) x)
    · exact tri _ rfl (.big _ (big 64 (by decide) (by decide) x)) (big 64 (by decide) (by decide) x)
  | big _ ha => cases t <;> exact ref rfl (by decide)

example : Value.downcast (G := G) (B := B) .byte (.long 300) = .err .unexpectedValue :=
  (C35_downcast .long .byte _ _ (.long 300)).2.2 (by unfold NumTy.Holds Fits NumTy.bits; decide)

/-- C35, violation: casts that have an exact result and are refused: no downcast takes a big integer, and none takes a byte to a
short. -/
theorem C35_violation_downcast_refused (t : NumTy) (a : Int) (x : BitVec 8) :
    Value.downcast (G := G) (B := B) t.stype (.bigInt a) = .err .unexpectedValue ∧
    Value.downcast (G := G) (B := B) .short (.byte x) = .err .unexpectedValue := by
  cases t <;> exact ⟨rfl, rfl⟩

/-! ## The nodes -/

section
variable [DecidableEq G] [DecidableEq B] [DecidableEq (Value G B)] (W : World G B T) (C : EvalCtx G B)

/-- Whether a kind of `BinOp` needs numbers. -/
def isNumeric : BinK → Bool
  | .eq | .neq | .and | .or | .xor => false
  | _ => true

/-- C35: the `BinOp` node evaluates the left operand, then the right one, and combines the two values as above. -/
theorem C35_node (n : Nat) (k : BinK) (hk : isNumeric k = true) (l r : Expr G B) (lv rv : Value G B) (s s' s'' : EvalSt G B)
    (hC : C.limit = none) (hl : eval W C n l { s with cost := s.cost + 2 } = .ok (lv, s'))
    (hr : eval W C n r s' = .ok (rv, s'')) :
    eval W C (n + 1) (.bin k l r) s = EvalM.lift (lv.binNum k rv) s'' := by
  rw [eval_succ_run W C n _ s hC]
  show evalBin C (eval W C n) k l r _ = _
  have arith : evalBin C (eval W C n) k l r { s with cost := s.cost + 1 } =
      (match lv.leftNum k with
        | some f => evalAs (eval W C n) f r
        | none => EvalM.fail .unexpectedValue) s' ∨
      evalBin C (eval W C n) k l r { s with cost := s.cost + 1 } =
        (eval W C n r >>= fun rv => EvalM.lift (lv.binNum k rv)) s' := by
    unfold evalBin
    rw [hC, EvalM.bind_ok (EvalM.addCost_none _), EvalM.bind_ok hl]
    cases k <;> first | exact .inl rfl | exact .inr rfl | exact absurd hk (by decide)
  rcases arith with h | h
  · rw [h]
    unfold Value.binNum
    cases hf : lv.leftNum k with
    | none => rfl
    | some f =>
      show (eval W C n r >>= fun v => EvalM.lift (f v)) s' = _
      rw [EvalM.bind_ok hr]
  · rw [h, EvalM.bind_ok hr]

example (hC : C.limit = none) (s : EvalSt G B) :
    eval W C 2 (.bin .multiply (.const { tpe := .long, v := .long 3 }) (.const { tpe := .long, v := .long (-5) })) s =
      .ok (.long (-15), { s with cost := s.cost + 4 }) := by
  rw [C35_node W C 1 .multiply rfl _ _ (.long 3) (.long (-5)) s { s with cost := s.cost + 3 } { s with cost := s.cost + 4 } hC
    (by rw [eval_succ_run W C 0 _ _ hC]; rfl) (by rw [eval_succ_run W C 0 _ _ hC]; rfl)]
  rfl

end

/-! ## C36: byte arrays -/

/-- C36: `longToByteArray` gives the eight bytes of the big-endian two's complement. -/
theorem C36_longToByteArray (x : BitVec 64) : (longToBytes x).length = 8 ∧ twos (longToBytes x) = x.toInt :=
  ⟨longBytesLoop_length 8 x, twos_longToBytes x⟩

example : longToBytes (-2) = [255, 255, 255, 255, 255, 255, 255, 254] ∧ twos (longToBytes (-2)) = -2 :=
  ⟨by decide, (C36_longToByteArray (-2)).2⟩

/-- C36: `byteArrayToBigInt` reads big-endian two's complement, refuses the empty array and what does not fit 256 bits. -/
theorem C36_byteArrayToBigInt (bs : Bytes) :
    (bs ≠ [] ∧ Fits 256 (twos bs) → bytesToBigInt bs = .ok (twos bs)) ∧
    (bs = [] ∨ ¬ Fits 256 (twos bs) → bytesToBigInt bs = .err .unexpectedValue) := by
  rw [twos_eq]
  unfold bytesToBigInt
  constructor
  · rintro ⟨h1, h2⟩
    rw [if_neg (by simpa using h1), bigInt256_some h2]; rfl
  · rintro (rfl | h)
    · rfl
    · split
      · rfl
      · rw [bigInt256_none h]; rfl

example : bytesToBigInt [255, 0] = .ok (-256) := (C36_byteArrayToBigInt [255, 0]).1 ⟨by simp, by unfold Fits; decide⟩

/-- C36, as far as it holds: `byteArrayToLong` of at least eight bytes reads the first eight as big-endian two's complement exactly
when every byte from `0x80` on has nothing but `0xFF` before it.  (The intended statement is that it does so always; each
byte is sign-extended before it is shifted into place, see `C36_violation_byteArrayToLong`.) -/
theorem C36_byteArrayToLong_partial (bs rest : Bytes) (h : bs.length = 8) :
    (∃ r, bytesToLong (bs ++ rest) = .ok r) ∧ ∀ r, bytesToLong (bs ++ rest) = .ok r → (r.toInt = twos bs ↔ SignClean bs) := by
  obtain ⟨b0, b1, b2, b3, b4, b5, b6, b7, rfl⟩ : ∃ b0 b1 b2 b3 b4 b5 b6 b7, bs = [b0, b1, b2, b3, b4, b5, b6, b7] := by
    rcases bs with _ | ⟨b0, _ | ⟨b1, _ | ⟨b2, _ | ⟨b3, _ | ⟨b4, _ | ⟨b5, _ | ⟨b6, _ | ⟨b7, _ | ⟨b8, l⟩⟩⟩⟩⟩⟩⟩⟩⟩ <;>
      simp at h
    exact ⟨b0, b1, b2, b3, b4, b5, b6, b7, rfl⟩
  have e := bytesToLong_fold b0 b1 b2 b3 b4 b5 b6 b7 rest
  refine ⟨⟨_, e⟩, fun r hr => ?_⟩
  have : r = [b1, b2, b3, b4, b5, b6, b7].foldl shl (b0.signExtend 64) := by
    rw [show ([b0, b1, b2, b3, b4, b5, b6, b7] ++ rest : Bytes) = b0 :: b1 :: b2 :: b3 :: b4 :: b5 :: b6 :: b7 :: rest from rfl,
      e] at hr
    cases hr; rfl
  rw [this]
  exact (foldl_shl b0 [b1, b2, b3, b4, b5, b6, b7] (by simp)).1

/-- C36, as far as it holds: `byteArrayToLong(longToByteArray(x)) = x` exactly for the numbers whose bytes satisfy that
condition. -/
theorem C36_long_roundtrip_partial (x : BitVec 64) : bytesToLong (longToBytes x) = .ok x ↔ SignClean (longToBytes x) := by
  obtain ⟨⟨r, hr⟩, h⟩ := C36_byteArrayToLong_partial (longToBytes x) [] (C36_longToByteArray x).1
  rw [List.append_nil] at hr h
  rw [← h r hr, (C36_longToByteArray x).2, hr]
  simp only [Res.ok.injEq]
  exact BitVec.toInt_inj.symm

/-- The condition holds for some numbers with all bytes in use. -/
example : bytesToLong (longToBytes 0x0102030405060708) = .ok 0x0102030405060708 ∧ bytesToLong (longToBytes (-3)) = .ok (-3) := by
  decide

/-- C36, violation: 128 becomes -128. -/
theorem C36_violation_byteArrayToLong :
    longToBytes 128 = [0, 0, 0, 0, 0, 0, 0, 128] ∧ bytesToLong (longToBytes 128) = .ok (-128) ∧
    ¬ ∀ x, bytesToLong (longToBytes x) = .ok x := by
  refine ⟨by decide, by decide, fun h => absurd (h 128) (by decide)⟩

/-- C36: the three nodes are these functions, and refuse anything but a byte collection or a long. -/
theorem C36_nodes [DecidableEq G] (W : World G B T) (C : EvalCtx G B) (v : Value G B) :
    Value.strictOp W C .longToByteArray [v] = (v.asLong >>= fun x => .ok (.collByte (longToBytes x))) ∧
    Value.strictOp W C .byteArrayToLong [v] = (v.asBytes >>= fun b => bytesToLong b >>= fun x => .ok (.long x)) ∧
    Value.strictOp W C .byteArrayToBigInt [v] = (v.asBytes >>= fun b => bytesToBigInt b >>= fun x => .ok (.bigInt x)) :=
  ⟨rfl, rfl, rfl⟩

/-- C36: shorter arrays are refused. -/
theorem C36_short_refused (bs : Bytes) (h : bs.length < 8) : bytesToLong bs = .err .unexpectedValue := by
  rcases bs with _ | ⟨b0, _ | ⟨b1, _ | ⟨b2, _ | ⟨b3, _ | ⟨b4, _ | ⟨b5, _ | ⟨b6, _ | ⟨b7, l⟩⟩⟩⟩⟩⟩⟩⟩ <;> first | rfl | skip
  simp at h
  omega

example : bytesToLong [1, 2, 3] = .err .unexpectedValue := C36_short_refused [1, 2, 3] (by decide)

end Verif
