import Verif.Spec.JsConv
import Verif.Spec.Constant
import Verif.Proofs.JsonChain

set_option linter.unusedSimpArgs false
set_option linter.unusedVariables false

namespace Verif
open Spec JsConv

/-! ## Texts of integers -/

theorem jsDigit_iff (c : Char) : ('0' ≤ c ∧ c ≤ '9') ↔ (48 ≤ c.toNat ∧ c.toNat ≤ 57) := by
  constructor
  · rintro ⟨h1, h2⟩
    exact ⟨h1, h2⟩
  · rintro ⟨h1, h2⟩
    exact ⟨h1, h2⟩

theorem jsGo_iff (bound : Nat) : ∀ (ds : List Char) (acc n : Nat),
    Json.parseUint.go bound acc ds = some n ↔
      (∀ c ∈ ds, '0' ≤ c ∧ c ≤ '9') ∧ ds.foldl (fun a c => 10 * a + (c.toNat - 48)) acc = n ∧ (ds = [] ∨ n < bound)
  | [], acc, n => by simp [Json.parseUint.go]
  | c :: cs, acc, n => by
    unfold Json.parseUint.go
    rw [List.foldl_cons]
    have hcomm : acc * 10 + (c.toNat - 48) = 10 * acc + (c.toNat - 48) := by omega
    by_cases hc : 48 ≤ c.toNat ∧ c.toNat ≤ 57
    · have hd : digitVal c = some (c.toNat - 48) := if_pos hc
      rw [hd]
      simp only
      have hm := foldl_digits_mono cs (10 * acc + (c.toNat - 48))
      by_cases hb : acc * 10 + (c.toNat - 48) < bound
      · rw [if_pos hb, jsGo_iff bound cs, hcomm]
        constructor
        · rintro ⟨h1, h2, h3⟩
          refine ⟨?_, h2, Or.inr ?_⟩
          · intro x hx
            rcases List.mem_cons.1 hx with rfl | hx
            · exact (jsDigit_iff _).2 hc
            · exact h1 x hx
          · rcases h3 with h3 | h3
            · subst h3
              simp only [List.foldl_nil] at h2
              omega
            · exact h3
        · rintro ⟨h1, h2, h3⟩
          refine ⟨fun x hx => h1 x (List.mem_cons_of_mem _ hx), h2, Or.inr ?_⟩
          rcases h3 with h3 | h3
          · cases h3
          · exact h3
      · rw [if_neg hb]
        constructor
        · intro h; cases h
        · rintro ⟨h1, h2, h3⟩
          rcases h3 with h3 | h3
          · cases h3
          · omega
    · have hd : digitVal c = none := if_neg hc
      rw [hd]
      simp only
      constructor
      · intro h; cases h
      · rintro ⟨h1, _, _⟩
        exact absurd ((jsDigit_iff c).1 (h1 c (List.mem_cons_self ..))) hc

theorem long_ofInt {i : Int} (h1 : -(2 ^ 63) ≤ i) (h2 : i < 2 ^ 63) : (BitVec.ofInt 64 i).toInt = i := by
  rw [BitVec.toInt_ofInt, Int.bmod_def]
  split <;> omega

theorem int_ofInt {i : Int} (h1 : -(2 ^ 31) ≤ i) (h2 : i < 2 ^ 31) : (BitVec.ofInt 32 i).toInt = i := by
  rw [BitVec.toInt_ofInt, Int.bmod_def]
  split <;> omega

/-- Reading a text as a 64-bit integer. -/
theorem parseI64_iff (s : Text) (v : BitVec 64) : parseI64 s = some v ↔ LongText s v.toInt := by
  have hv1 := BitVec.le_toInt v
  have hv2 := BitVec.toInt_lt (x := v)
  have hpos : ∀ (ds : Text), ds ≠ [] → ((Json.parseUint.go (2 ^ 63) 0 ds).map (fun (n : Nat) => BitVec.ofInt 64 (n : Int)) = some v ↔
      (∀ c ∈ ds, '0' ≤ c ∧ c ≤ '9') ∧ v.toInt = digitsValue ds) := by
    intro ds hds
    rw [Option.map_eq_some_iff]
    constructor
    · rintro ⟨n, h1, h2⟩
      obtain ⟨h3, h4, h5⟩ := (jsGo_iff _ _ _ _).1 h1
      rcases h5 with h5 | h5
      · exact absurd h5 hds
      · refine ⟨h3, ?_⟩
        rw [← h2, long_ofInt (by omega) (by omega)]
        unfold digitsValue
        rw [h4]
    · rintro ⟨h1, h2⟩
      refine ⟨digitsValue ds, (jsGo_iff _ _ _ _).2 ⟨h1, rfl, Or.inr ?_⟩, ?_⟩
      · simp only [Nat.reduceSub] at hv2; omega
      · rw [← h2]; exact BitVec.ofInt_toInt
  have hneg : ∀ (ds : Text), ds ≠ [] → ((Json.parseUint.go (2 ^ 63 + 1) 0 ds).map (fun (n : Nat) => BitVec.ofInt 64 (-(n : Int))) = some v ↔
      (∀ c ∈ ds, '0' ≤ c ∧ c ≤ '9') ∧ v.toInt = -(digitsValue ds : Int)) := by
    intro ds hds
    rw [Option.map_eq_some_iff]
    constructor
    · rintro ⟨n, h1, h2⟩
      obtain ⟨h3, h4, h5⟩ := (jsGo_iff _ _ _ _).1 h1
      rcases h5 with h5 | h5
      · exact absurd h5 hds
      · refine ⟨h3, ?_⟩
        rw [← h2, long_ofInt (by omega) (by omega)]
        unfold digitsValue
        rw [h4]
    · rintro ⟨h1, h2⟩
      refine ⟨digitsValue ds, (jsGo_iff _ _ _ _).2 ⟨h1, rfl, Or.inr ?_⟩, ?_⟩
      · simp only [Nat.reduceSub] at hv1; omega
      · rw [← h2]; exact BitVec.ofInt_toInt
  unfold LongText
  simp only [Nat.reduceSub] at hv1 hv2
  cases s with
  | nil =>
    unfold parseI64
    constructor
    · intro h; cases h
    · rintro ⟨_, _, ds, h1, _, h3⟩
      rcases h3 with ⟨h3 | h3, _⟩ | ⟨h3, _⟩
      · exact absurd h3.symm h1
      · cases h3
      · cases h3
  | cons c cs =>
    unfold parseI64
    simp only
    by_cases hm : c = '-'
    · subst hm
      rw [if_pos rfl]
      by_cases hcs : cs = []
      · rw [if_pos hcs]
        subst hcs
        constructor
        · intro h; cases h
        · rintro ⟨_, _, ds, h1, h2, h3⟩
          rcases h3 with ⟨h3 | h3, _⟩ | ⟨h3, _⟩
          · subst h3
            exact absurd (h2 '-' (by simp)) (by decide)
          · cases h3
          · cases h3; exact absurd rfl h1
      · rw [if_neg hcs, hneg cs hcs]
        constructor
        · rintro ⟨h1, h2⟩
          exact ⟨hv1, hv2, cs, hcs, h1, Or.inr ⟨rfl, h2⟩⟩
        · rintro ⟨_, _, ds, h1, h2, h3⟩
          rcases h3 with ⟨h3 | h3, _⟩ | ⟨h3, h4⟩
          · subst h3
            exact absurd (h2 '-' (by simp)) (by decide)
          · cases h3
          · cases h3; exact ⟨h2, h4⟩
    · rw [if_neg hm]
      by_cases hp : c = '+'
      · subst hp
        rw [if_pos rfl]
        by_cases hcs : cs = []
        · rw [if_pos hcs]
          subst hcs
          constructor
          · intro h; cases h
          · rintro ⟨_, _, ds, h1, h2, h3⟩
            rcases h3 with ⟨h3 | h3, _⟩ | ⟨h3, _⟩
            · subst h3
              exact absurd (h2 '+' (by simp)) (by decide)
            · cases h3; exact absurd rfl h1
            · cases h3
        · rw [if_neg hcs, hpos cs hcs]
          constructor
          · rintro ⟨h1, h2⟩
            exact ⟨hv1, hv2, cs, hcs, h1, Or.inl ⟨Or.inr rfl, h2⟩⟩
          · rintro ⟨_, _, ds, h1, h2, h3⟩
            rcases h3 with ⟨h3 | h3, h4⟩ | ⟨h3, h4⟩
            · subst h3
              exact absurd (h2 '+' (by simp)) (by decide)
            · cases h3; exact ⟨h2, h4⟩
            · cases h3
      · rw [if_neg hp, if_neg (by simp), hpos _ (by simp)]
        constructor
        · rintro ⟨h1, h2⟩
          exact ⟨hv1, hv2, c :: cs, by simp, h1, Or.inl ⟨Or.inl rfl, h2⟩⟩
        · rintro ⟨_, _, ds, h1, h2, h3⟩
          rcases h3 with ⟨h3 | h3, h4⟩ | ⟨h3, h4⟩
          · subst h3; exact ⟨h2, h4⟩
          · cases h3; exact absurd rfl hp
          · cases h3; exact absurd rfl hm

/-- The text of a 64-bit integer is one. -/
theorem longText_bigText (v : BitVec 64) : LongText (Json.bigText v.toInt) v.toInt := by
  have hv1 := BitVec.le_toInt v
  have hv2 := BitVec.toInt_lt (x := v)
  simp only [Nat.reduceSub] at hv1 hv2
  have hd : ∀ n, ∀ c ∈ decimal n, '0' ≤ c ∧ c ≤ '9' := fun n c hc => (jsDigit_iff c).2 (decimal_digits n c hc)
  unfold Json.bigText
  by_cases hn : v.toInt < 0
  · rw [if_pos hn]
    refine ⟨hv1, hv2, decimal v.toInt.natAbs, decimal_ne_nil _, hd _, Or.inr ⟨rfl, ?_⟩⟩
    rw [digitsValue_decimal]; omega
  · rw [if_neg hn]
    refine ⟨hv1, hv2, decimal v.toInt.natAbs, decimal_ne_nil _, hd _, Or.inl ⟨Or.inl rfl, ?_⟩⟩
    rw [digitsValue_decimal]; omega

/-! ## Numbers -/

theorem numIs_unique {n : JsNum} {i k : Int} (h1 : NumIs n i) (h2 : NumIs n k) : i = k := by
  cases n with
  | nan => cases h1
  | inf b => cases h1
  | fin m e =>
    unfold NumIs at h1 h2
    simp only at h1 h2
    split at h1
    · rename_i he
      rw [if_pos he] at h2
      exact h1.symm.trans h2
    · rename_i he
      rw [if_neg he] at h2
      have hp : (2 : Int) ^ (-e).toNat ≠ 0 := by
        have : (0 : Int) < 2 ^ (-e).toNat := Int.pow_pos (by decide)
        omega
      exact Int.eq_of_mul_eq_mul_right hp (h1.symm.trans h2)

theorem numToI32_is {n : JsNum} {i : Int} (h : NumIs n i) (h1 : -(2 ^ 31) ≤ i) (h2 : i < 2 ^ 31) : (numToI32 n).toInt = i := by
  cases n with
  | nan => cases h
  | inf b => cases h
  | fin m e =>
    unfold NumIs at h
    simp only at h
    unfold numToI32
    simp only
    have ht : (if 0 ≤ e then m * 2 ^ e.toNat else Int.tdiv m (2 ^ (-e).toNat)) = i := by
      split
      · rename_i he
        rw [if_pos he] at h
        exact h
      · rename_i he
        rw [if_neg he] at h
        rw [h]
        apply Int.mul_tdiv_cancel
        have : (0 : Int) < 2 ^ (-e).toNat := Int.pow_pos (by decide)
        omega
    rw [ht, int_ofInt] <;> omega

theorem numToI32_iff {n : JsNum} (h : ∃ i : Int, -(2 ^ 31) ≤ i ∧ i < 2 ^ 31 ∧ NumIs n i) (v : BitVec 32) :
    numToI32 n = v ↔ NumIs n v.toInt := by
  obtain ⟨i, h1, h2, h3⟩ := h
  have e := numToI32_is h3 h1 h2
  constructor
  · intro hv
    rw [← hv, e]; exact h3
  · intro hv
    have : i = v.toInt := numIs_unique h3 hv
    exact BitVec.eq_of_toInt_eq (e.trans this)

/-! ## Reading -/

section
variable {G B : Type}

theorem fromJs_arr_str (s : Text) (l : List Js) : (fromJs (.arr (.str s :: l)) : Outcome (Constant G B)) =
    if s = tupleToken then fromJsAll l >>= tupleConst
    else match collLong (.str s :: l) with
      | some vs => .ok ⟨.coll .long, .coll .long (vs.map .long)⟩
      | none => .err := by
  rw [fromJs]; rfl

theorem fromJs_arr_other (l : List Js) (h : ∀ s r, l ≠ .str s :: r) : (fromJs (.arr l) : Outcome (Constant G B)) =
    fromJsAll l >>= collConst := by
  rw [fromJs]
  intro s r e; exact h s r e

theorem fromJsAll_cons (j : Js) (l : List Js) (cs : List (Constant G B)) :
    fromJsAll (j :: l) = .ok cs ↔ ∃ c cs', cs = c :: cs' ∧ fromJs j = .ok c ∧ fromJsAll l = .ok cs' := by
  rw [fromJsAll]
  constructor
  · intro h
    obtain ⟨c, h1, h2⟩ := Outcome.bind_eq_ok.1 h
    obtain ⟨cs', h3, h4⟩ := Outcome.bind_eq_ok.1 h2
    cases h4
    exact ⟨c, cs', rfl, h1, h3⟩
  · rintro ⟨c, cs', rfl, h1, h2⟩
    rw [h1, Outcome.bind_ok, h2, Outcome.bind_ok]
    rfl

theorem collLong_form : ∀ (l : List Js) (ws : List (Literal G B)),
    (∃ vs, collLong l = some vs ∧ ws = vs.map .long) ↔ JsFormAll l .long ws
  | [], ws => by
    cases ws with
    | nil => simp [collLong, JsFormAll]
    | cons w ws => simp [collLong, JsFormAll]
  | j :: l, ws => by
    have ih := collLong_form l
    cases ws with
    | nil =>
      simp only [JsFormAll, iff_false]
      rintro ⟨vs, h1, h2⟩
      cases vs with
      | cons v vs => cases h2
      | nil =>
        cases j with
        | str s =>
          simp only [collLong] at h1
          cases hp : parseI64 s with
          | none => rw [hp] at h1; cases h1
          | some v' =>
            cases hq : collLong l with
            | none => rw [hp, hq] at h1; cases h1
            | some vs' => rw [hp, hq] at h1; cases h1
        | _ => cases h1
    | cons w ws =>
      rw [JsFormAll, ← ih ws]
      constructor
      · rintro ⟨vs, h1, h2⟩
        cases vs with
        | nil => cases h2
        | cons v vs =>
          cases h2
          cases j with
          | str s =>
            simp only [collLong] at h1
            cases hp : parseI64 s with
            | none => rw [hp] at h1; cases h1
            | some v' =>
              cases hq : collLong l with
              | none => rw [hp, hq] at h1; cases h1
              | some vs' =>
                rw [hp, hq] at h1
                cases h1
                refine ⟨?_, vs, rfl, rfl⟩
                rw [JsForm]
                exact (parseI64_iff s v).1 hp
          | _ => cases h1
      · rintro ⟨h1, vs, h2, rfl⟩
        cases j with
        | str s =>
          cases w with
          | long v =>
            rw [JsForm] at h1
            refine ⟨v :: vs, ?_, rfl⟩
            simp only [collLong]
            rw [(parseI64_iff s v).2 h1, h2]
            rfl
          | _ => simp [JsForm] at h1
        | _ => simp [JsForm] at h1

theorem fromJsAll_length : ∀ (l : List Js) (cs : List (Constant G B)), fromJsAll l = .ok cs → cs.length = l.length
  | [], cs, h => by rw [fromJsAll] at h; cases h; rfl
  | j :: l, cs, h => by
    obtain ⟨c, cs', rfl, _, h2⟩ := (fromJsAll_cons j l cs).1 h
    simp [fromJsAll_length l cs' h2]

mutual
/-- The type of the constant. -/
theorem fromJs_tpe : ∀ (j : Js) (c : Constant G B), fromJs j = .ok c → c.tpe = suggested j
  | .other, c, h => by rw [fromJs] at h; cases h
  | .bool _, c, h => by rw [fromJs] at h; cases h
  | .num n, c, h => by rw [fromJs] at h; cases h; rfl
  | .str s, c, h => by
    rw [fromJs] at h
    split at h
    · cases h; rfl
    · cases h
  | .big i, c, h => by
    rw [fromJs] at h
    obtain ⟨v, _, h2⟩ := Outcome.bind_eq_ok.1 h
    cases h2; rfl
  | .bytes b, c, h => by rw [fromJs] at h; cases h; rfl
  | .arr [], c, h => by
    rw [fromJs_arr_other _ (by intro s r; simp), fromJsAll, Outcome.bind_ok] at h
    cases h
  | .arr (j :: l), c, h => by
    by_cases hs : ∃ s, j = .str s
    · obtain ⟨s, rfl⟩ := hs
      rw [fromJs_arr_str] at h
      rw [suggested]
      split at h
      · rename_i ht
        obtain ⟨cs, h1, h2⟩ := Outcome.bind_eq_ok.1 h
        unfold tupleConst at h2
        split at h2
        · cases h2
          rw [if_pos (show s = ['T', 'u', 'p', 'l', 'e'] from ht)]
          exact congrArg _ (fromJsAll_tpe l cs h1)
        · cases h2
      · rename_i ht
        rw [if_neg (show ¬ s = ['T', 'u', 'p', 'l', 'e'] from ht)]
        split at h
        · cases h; rfl
        · cases h
    · have hn : ∀ s r, j :: l ≠ .str s :: r := by
        intro s r e
        cases e
        exact hs ⟨s, rfl⟩
      rw [fromJs_arr_other _ hn] at h
      obtain ⟨cs, h1, h2⟩ := Outcome.bind_eq_ok.1 h
      obtain ⟨c', cs', rfl, h3, h4⟩ := (fromJsAll_cons j l cs).1 h1
      cases h2
      have ih := fromJs_tpe j c' h3
      rw [suggested]
      · exact congrArg _ ih
      · rintro s rfl
        exact hs ⟨s, rfl⟩
/-- The same for all elements. -/
theorem fromJsAll_tpe : ∀ (l : List Js) (cs : List (Constant G B)), fromJsAll l = .ok cs → cs.map Constant.tpe = suggestedAll l
  | [], cs, h => by rw [fromJsAll] at h; cases h; rfl
  | j :: l, cs, h => by
    obtain ⟨c, cs', rfl, h1, h2⟩ := (fromJsAll_cons j l cs).1 h
    rw [List.map_cons, suggestedAll, fromJs_tpe j c h1, fromJsAll_tpe l cs' h2]
end

theorem form_all_each (e : SType) : ∀ (l : List Js) (vs : List (Literal G B)),
    JsFormAll l e vs ↔ JsFormEach l (vs.map fun _ => e) vs
  | [], [] => by simp [JsFormAll, JsFormEach]
  | [], _ :: _ => by simp [JsFormAll, JsFormEach]
  | _ :: _, [] => by simp [JsFormAll, JsFormEach]
  | j :: l, v :: vs => by
    rw [JsFormAll, List.map_cons, JsFormEach, form_all_each e l vs]

theorem bigOfJs_iff (i v : Int) : bigOfJs i = .ok v ↔ v = i ∧ -(2 ^ 255) ≤ i ∧ i ≤ 2 ^ 255 - 1 := by
  unfold bigOfJs
  rw [bigInt_bigText]
  simp only
  split
  · constructor
    · intro h; cases h
    · rintro ⟨_, h, _⟩; omega
  · split
    · constructor
      · intro h; cases h
      · rintro ⟨_, _, h⟩; omega
    · constructor
      · intro h; cases h; exact ⟨rfl, by omega, by omega⟩
      · rintro ⟨rfl, _, _⟩; rfl

theorem whole_of_long : ∀ (l : List Js) (vs : List (Literal G B)), JsFormAll l .long vs → WholeNumbersAll l
  | [], _, _ => by simp [WholeNumbersAll]
  | j :: l, [], h => by simp [JsFormAll] at h
  | j :: l, v :: vs, h => by
    rw [JsFormAll] at h
    rw [WholeNumbersAll]
    refine ⟨?_, whole_of_long l vs h.2⟩
    cases j with
    | num n => cases v <;> simp [JsForm] at h
    | arr l => cases v <;> simp [JsForm] at h
    | _ => simp [WholeNumbers]

theorem suggested_mem : ∀ (l : List Js) (e : SType), suggestedAll l = l.map (fun _ => e) → ∀ j ∈ l, suggested j = e
  | [], _, _, j, h => by cases h
  | j' :: l, e, h, j, hj => by
    rw [suggestedAll, List.map_cons] at h
    injection h with h1 h2
    rcases List.mem_cons.1 hj with rfl | hj
    · exact h1
    · exact suggested_mem l e h2 j hj

theorem suggestedAll_of : ∀ (l : List Js) (e : SType), (∀ j ∈ l, suggested j = e) → suggestedAll l = l.map (fun _ => e)
  | [], _, _ => rfl
  | j :: l, e, h => by
    rw [suggestedAll, List.map_cons, h j (by simp), suggestedAll_of l e fun x hx => h x (by simp [hx])]

/-- A list of JavaScript values is read item by item. -/
def EachForm (G B : Type) (l : List Js) : Prop := ∀ (ts : List SType) (vs : List (Literal G B)),
    (∃ cs, fromJsAll l = .ok cs ∧ cs.map Constant.tpe = ts ∧ cs.map Constant.v = vs ∧ WholeNumbersAll l ∧ UniformAll l) ↔
      JsFormEach l ts vs

theorem fromJs_form_str (s : Text) (l : List Js) (ih : EachForm G B l) (t : SType) (v : Literal G B) :
    (fromJs (.arr (.str s :: l)) = .ok ⟨t, v⟩ ∧ WholeNumbers (.arr (.str s :: l)) ∧ Uniform (.arr (.str s :: l))) ↔
      JsForm (.arr (.str s :: l)) t v := by
  rw [fromJs_arr_str]
  by_cases ht : s = tupleToken
  · rw [if_pos ht]
    constructor
    · rintro ⟨h, hw, hu⟩
      obtain ⟨cs, h1, h2⟩ := Outcome.bind_eq_ok.1 h
      unfold tupleConst at h2
      split at h2
      · rename_i hl
        cases h2
        rw [JsForm, JsFormTuple]
        rw [WholeNumbers, WholeNumbersAll] at hw
        rw [Uniform] at hu
        have hlen := fromJsAll_length l cs h1
        refine ⟨ht, by omega, by omega, (ih _ _).1 ⟨cs, h1, rfl, rfl, hw.2, ?_⟩⟩
        rcases hu with hu | hu
        · exact hu.2
        · exact absurd ht hu
      · cases h2
    · intro h
      cases t with
      | tuple ts =>
        cases v with
        | tup vs =>
          rw [JsForm, JsFormTuple] at h
          obtain ⟨_, h1, h2, h3⟩ := h
          obtain ⟨cs, h4, rfl, rfl, h5, h6⟩ := (ih _ _).2 h3
          have hlen := fromJsAll_length l cs h4
          rw [h4, Outcome.bind_ok]
          refine ⟨?_, ?_, ?_⟩
          · unfold tupleConst
            rw [if_pos ⟨by omega, by omega⟩]
          · rw [WholeNumbers, WholeNumbersAll]
            exact ⟨by simp [WholeNumbers], h5⟩
          · rw [Uniform]
            exact Or.inl ⟨ht, h6⟩
        | _ => simp [JsForm] at h
      | coll e =>
        exfalso
        cases v with
        | coll e' vs =>
          rw [JsForm] at h
          obtain ⟨_, _, h3⟩ := h
          cases vs with
          | nil => simp [JsFormAll] at h3
          | cons v vs =>
            rw [JsFormAll] at h3
            cases e with
            | long =>
              cases v with
              | long v =>
                rw [JsForm, ht] at h3
                have := (parseI64_iff tupleToken v).2 h3.1
                revert this
                have hz : parseI64 tupleToken = none := by decide
                rw [hz]
                intro h; cases h
              | _ => simp [JsForm] at h3
            | _ => cases v <;> simp [JsForm] at h3
        | _ => simp [JsForm] at h
      | _ => simp [JsForm] at h
  · rw [if_neg ht]
    constructor
    · rintro ⟨h, hw, hu⟩
      split at h
      · rename_i vs hvs
        cases h
        rw [JsForm]
        exact ⟨rfl, by simp, (collLong_form _ _).1 ⟨vs, hvs, rfl⟩⟩
      · cases h
    · intro h
      cases t with
      | tuple ts =>
        cases v with
        | tup vs =>
          rw [JsForm, JsFormTuple] at h
          exact absurd h.1 ht
        | _ => simp [JsForm] at h
      | coll e =>
        cases v with
        | coll e' vs =>
          rw [JsForm] at h
          obtain ⟨rfl, _, h3⟩ := h
          have he : e' = .long := by
            cases vs with
            | nil => simp [JsFormAll] at h3
            | cons v vs =>
              rw [JsFormAll] at h3
              cases e' with
              | long => rfl
              | _ => cases v <;> simp [JsForm] at h3
          subst he
          obtain ⟨ws, h4, rfl⟩ := (collLong_form _ _).2 h3
          rw [h4]
          refine ⟨rfl, ?_, ?_⟩
          · rw [WholeNumbers]
            exact whole_of_long _ _ h3
          · rw [Uniform]
            exact Or.inr ht
        | _ => simp [JsForm] at h
      | _ => simp [JsForm] at h

theorem fromJs_form_other (j : Js) (l : List Js) (hs : ∀ s, j ≠ .str s)  (ih : EachForm G B (j :: l))
    (t : SType) (v : Literal G B) :
    (fromJs (.arr (j :: l)) = .ok ⟨t, v⟩ ∧ WholeNumbers (.arr (j :: l)) ∧ Uniform (.arr (j :: l))) ↔
      JsForm (.arr (j :: l)) t v := by
  have hn : ∀ s r, j :: l ≠ .str s :: r := by
    intro s r e
    cases e
    exact hs s rfl
  have hu : Uniform (.arr (j :: l)) = (Uniform j ∧ UniformAll l ∧ ∀ j' ∈ l, suggested j' = suggested j) := by
    rw [Uniform]
    intro s e
    exact hs s e
  rw [fromJs_arr_other _ hn, hu, WholeNumbers]
  constructor
  · rintro ⟨h, hw, hu1, hu2, hu3⟩
    obtain ⟨cs, h1, h2⟩ := Outcome.bind_eq_ok.1 h
    have ht := fromJsAll_tpe _ _ h1
    obtain ⟨c, cs', rfl, h3, h4⟩ := (fromJsAll_cons j l cs).1 h1
    cases h2
    rw [JsForm]
    refine ⟨rfl, by simp, ?_⟩
    rw [form_all_each]
    have hc := fromJs_tpe _ _ h3
    refine (ih _ _).1 ⟨c :: cs', h1, ?_, rfl, hw, by rw [UniformAll]; exact ⟨hu1, hu2⟩⟩
    rw [ht, suggestedAll, suggestedAll_of l _ hu3, hc, List.map_map]
    have hlen := fromJsAll_length _ _ h4
    simp only [List.map_cons, Function.comp_def, List.cons.injEq, true_and, List.map_const', hlen]
  · intro h
    cases t with
    | tuple ts =>
      cases v with
      | tup vs =>
        rw [JsForm, JsFormTuple] at h
        · cases h
        · intro s r e; exact hn s r e
      | _ => simp [JsForm] at h
    | coll e =>
      cases v with
      | coll e' vs =>
        rw [JsForm] at h
        obtain ⟨rfl, _, h3⟩ := h
        rw [form_all_each] at h3
        obtain ⟨cs, h4, h5, rfl, hw, hu'⟩ := (ih _ _).2 h3
        have ht := fromJsAll_tpe _ _ h4
        have hlen := fromJsAll_length _ _ h4
        rw [h4, Outcome.bind_ok]
        rw [UniformAll] at hu'
        have hall : ∀ x ∈ j :: l, suggested x = e' := by
          apply suggested_mem
          rw [← ht, h5, List.map_map]
          simp only [Function.comp_def, List.map_const', hlen]
        obtain ⟨c, cs', rfl, h6, h7⟩ := (fromJsAll_cons j l cs).1 h4
        have hc : c.tpe = e' := (fromJs_tpe _ _ h6).trans (hall j (by simp))
        refine ⟨?_, hw, hu'.1, hu'.2, ?_⟩
        · rw [collConst, hc]
        · intro x hx
          rw [hall x (by simp [hx]), hall j (by simp)]
      | _ => simp [JsForm] at h
    | _ => simp [JsForm] at h

theorem eachForm_cons (j : Js) (l : List Js)
    (ih1 : ∀ (t : SType) (v : Literal G B), (fromJs j = .ok ⟨t, v⟩ ∧ WholeNumbers j ∧ Uniform j) ↔ JsForm j t v)
    (ih : EachForm G B l) : EachForm G B (j :: l) := by
  intro ts vs
  constructor
  · rintro ⟨cs, h, rfl, rfl, hw, hu⟩
    obtain ⟨c, cs', rfl, h1, h2⟩ := (fromJsAll_cons j l cs).1 h
    rw [WholeNumbersAll] at hw
    rw [UniformAll] at hu
    rw [List.map_cons, List.map_cons, JsFormEach]
    exact ⟨(ih1 _ _).1 ⟨h1, hw.1, hu.1⟩, (ih _ _).1 ⟨cs', h2, rfl, rfl, hw.2, hu.2⟩⟩
  · intro h
    cases ts with
    | nil => simp [JsFormEach] at h
    | cons t ts =>
      cases vs with
      | nil => simp [JsFormEach] at h
      | cons v vs =>
        rw [JsFormEach] at h
        obtain ⟨h1, hw1, hu1⟩ := (ih1 _ _).2 h.1
        obtain ⟨cs', h2, rfl, rfl, hw2, hu2⟩ := (ih _ _).2 h.2
        refine ⟨⟨t, v⟩ :: cs', (fromJsAll_cons j l _).2 ⟨_, _, rfl, h1, h2⟩, rfl, rfl, ?_, ?_⟩
        · rw [WholeNumbersAll]; exact ⟨hw1, hw2⟩
        · rw [UniformAll]; exact ⟨hu1, hu2⟩

mutual
/-- What is read is what is meant, and nothing else. -/
theorem fromJs_form : ∀ (j : Js) (t : SType) (v : Literal G B),
    (fromJs j = .ok ⟨t, v⟩ ∧ WholeNumbers j ∧ Uniform j) ↔ JsForm j t v
  | .other, t, v => by
    rw [fromJs]
    constructor
    · rintro ⟨h, _⟩; cases h
    · intro h; simp [JsForm] at h
  | .bool _, t, v => by
    rw [fromJs]
    constructor
    · rintro ⟨h, _⟩; cases h
    · intro h; simp [JsForm] at h
  | .num n, t, v => by
    rw [fromJs]
    constructor
    · rintro ⟨h, hw, _⟩
      cases h
      rw [WholeNumbers] at hw
      rw [JsForm]
      exact (numToI32_iff hw _).1 rfl
    · intro h
      cases t with
      | int =>
        cases v with
        | int v =>
          rw [JsForm] at h
          have h1 := BitVec.le_toInt v
          have h2 := BitVec.toInt_lt (x := v)
          have hw : ∃ i : Int, -(2 ^ 31) ≤ i ∧ i < 2 ^ 31 ∧ NumIs n i := ⟨v.toInt, h1, h2, h⟩
          refine ⟨?_, by rw [WholeNumbers]; exact hw, by simp [Uniform]⟩
          rw [(numToI32_iff hw v).2 h]
        | _ => simp [JsForm] at h
      | _ => simp [JsForm] at h
  | .str s, t, v => by
    rw [fromJs]
    constructor
    · rintro ⟨h, _, _⟩
      split at h
      · rename_i x hx
        cases h
        rw [JsForm]
        exact (parseI64_iff s x).1 hx
      · cases h
    · intro h
      cases t with
      | long =>
        cases v with
        | long v =>
          rw [JsForm] at h
          rw [(parseI64_iff s v).2 h]
          exact ⟨rfl, by simp [WholeNumbers], by simp [Uniform]⟩
        | _ => simp [JsForm] at h
      | _ => simp [JsForm] at h
  | .big i, t, v => by
    rw [fromJs]
    constructor
    · rintro ⟨h, _, _⟩
      obtain ⟨x, h1, h2⟩ := Outcome.bind_eq_ok.1 h
      cases h2
      rw [JsForm]
      exact (bigOfJs_iff i x).1 h1
    · intro h
      cases t with
      | bigInt =>
        cases v with
        | bigInt v =>
          rw [JsForm] at h
          rw [(bigOfJs_iff i v).2 h]
          exact ⟨rfl, by simp [WholeNumbers], by simp [Uniform]⟩
        | _ => simp [JsForm] at h
      | _ => simp [JsForm] at h
  | .bytes b, t, v => by
    rw [fromJs]
    constructor
    · rintro ⟨h, _, _⟩
      cases h
      rw [JsForm]
      exact ⟨rfl, rfl⟩
    · intro h
      cases t with
      | coll e =>
        cases v with
        | collByte b' =>
          rw [JsForm] at h
          obtain ⟨rfl, rfl⟩ := h
          exact ⟨rfl, by simp [WholeNumbers], by simp [Uniform]⟩
        | _ => simp [JsForm] at h
      | _ => simp [JsForm] at h
  | .arr [], t, v => by
    rw [fromJs_arr_other _ (by intro s r; simp), fromJsAll, Outcome.bind_ok]
    constructor
    · rintro ⟨h, _⟩; cases h
    · intro h
      cases t <;> cases v <;> simp [JsForm, JsFormTuple] at h
  | .arr (j :: l), t, v => by
    have ih1 := fromJs_form j
    have ih := fromJsAll_form l
    by_cases hs : ∃ s, j = .str s
    · obtain ⟨s, rfl⟩ := hs
      exact fromJs_form_str s l ih t v
    · exact fromJs_form_other j l (fun s e => hs ⟨s, e⟩) (eachForm_cons j l ih1 ih) t v
/-- The same for all elements. -/
theorem fromJsAll_form : ∀ (l : List Js), EachForm G B l
  | [] => fun ts vs => by
    rw [fromJsAll]
    constructor
    · rintro ⟨cs, h, rfl, rfl, _, _⟩
      cases h
      simp [JsFormEach]
    · intro h
      cases ts with
      | cons t ts => simp [JsFormEach] at h
      | nil =>
        cases vs with
        | cons v vs => simp [JsFormEach] at h
        | nil => exact ⟨[], rfl, rfl, rfl, by simp [WholeNumbersAll], by simp [UniformAll]⟩
  | j :: l => eachForm_cons j l (fromJs_form j) (fromJsAll_form l)
end

end

end Verif

namespace Verif
open Spec JsConv

section
variable {G B : Type} (bwf : B → Prop)

mutual
theorem toJs_not_panic : ∀ (v : Literal G B) (t : SType), toJs v t ≠ .panic
  | .coll e l, t => by
    cases t with
    | coll e' =>
      rw [toJs]
      have ih := toJsColl_not_panic l e
      cases h : toJsColl l e with
      | panic => exact absurd h ih
      | err => simp
      | ok js => simp
    | _ => simp [toJs]
  | .tup l, t => by
    cases t with
    | tuple ts =>
      rw [toJs]
      have ih := toJsTuple_not_panic l ts
      cases h : toJsTuple l ts with
      | panic => exact absurd h ih
      | err => simp
      | ok js => simp
    | _ => simp [toJs]
  | .unit, t => by cases t <;> simp [toJs]
  | .bool _, t => by cases t <;> simp [toJs]
  | .byte _, t => by cases t <;> simp [toJs]
  | .short _, t => by cases t <;> simp [toJs]
  | .int _, t => by cases t <;> simp [toJs]
  | .long _, t => by cases t <;> simp [toJs]
  | .bigInt _, t => by cases t <;> simp [toJs]
  | .groupElement _, t => by cases t <;> simp [toJs]
  | .sigmaProp _, t => by cases t <;> simp [toJs]
  | .avlTree _, t => by cases t <;> simp [toJs]
  | .box _, t => by cases t <;> simp [toJs]
  | .collByte _, t => by cases t <;> simp [toJs]
  | .none, t => by cases t <;> simp [toJs]
  | .some _, t => by cases t <;> simp [toJs]
theorem toJsColl_not_panic : ∀ (l : List (Literal G B)) (e : SType), toJsColl l e ≠ .panic
  | [], e => by simp [toJsColl]
  | v :: l, e => by
    rw [toJsColl]
    have ih1 := toJs_not_panic v e
    have ih := toJsColl_not_panic l e
    cases h1 : toJs v e with
    | panic => exact absurd h1 ih1
    | err => simp
    | ok j =>
      cases h : toJsColl l e with
      | panic => exact absurd h ih
      | err => simp
      | ok js => simp
theorem toJsTuple_not_panic : ∀ (l : List (Literal G B)) (ts : List SType), toJsTuple l ts ≠ .panic
  | [], ts => by simp [toJsTuple]
  | v :: l, [] => by simp [toJsTuple]
  | v :: l, t :: ts => by
    rw [toJsTuple]
    have ih1 := toJs_not_panic v t
    have ih := toJsTuple_not_panic l ts
    cases h1 : toJs v t with
    | panic => exact absurd h1 ih1
    | err => simp
    | ok j =>
      cases h : toJsTuple l ts with
      | panic => exact absurd h ih
      | err => simp
      | ok js => simp
end

mutual
/-- Which constants can be shown. -/
theorem toJs_shown : ∀ (v : Literal G B) (t : SType), WellTyped bwf v t → NoEmpty v → ((∃ j, toJs v t = .ok j) ↔ JsShown t = true)
  | .coll e l, t, hw, hn => by
    cases t with
    | coll e' =>
      rw [WellTyped] at hw
      obtain ⟨rfl, _, _, h4⟩ := hw
      rw [NoEmpty] at hn
      have ih := toJsColl_shown l e h4 hn.2 hn.1
      rw [toJs, JsShown, ← ih]
      constructor
      · rintro ⟨j, h⟩
        obtain ⟨js, h1, _⟩ := Outcome.bind_eq_ok.1 h
        exact ⟨js, h1⟩
      · rintro ⟨js, h⟩
        rw [h]
        exact ⟨_, rfl⟩
    | _ => simp [WellTyped] at hw
  | .tup l, t, hw, hn => by
    cases t with
    | tuple ts =>
      rw [WellTyped] at hw
      rw [NoEmpty] at hn
      have ih := toJsTuple_shown l ts hw.2.2 hn
      rw [toJs, JsShown, ← ih]
      constructor
      · rintro ⟨j, h⟩
        obtain ⟨js, h1, _⟩ := Outcome.bind_eq_ok.1 h
        exact ⟨js, h1⟩
      · rintro ⟨js, h⟩
        rw [h]
        exact ⟨_, rfl⟩
    | _ => simp [WellTyped] at hw
  | .unit, t, hw, hn => by cases t <;> first | (simp [WellTyped] at hw; done) | simp [toJs, JsShown]
  | .bool _, t, hw, hn => by cases t <;> first | (simp [WellTyped] at hw; done) | simp [toJs, JsShown]
  | .byte _, t, hw, hn => by cases t <;> first | (simp [WellTyped] at hw; done) | simp [toJs, JsShown]
  | .short _, t, hw, hn => by cases t <;> first | (simp [WellTyped] at hw; done) | simp [toJs, JsShown]
  | .int _, t, hw, hn => by cases t <;> first | (simp [WellTyped] at hw; done) | simp [toJs, JsShown]
  | .long _, t, hw, hn => by cases t <;> first | (simp [WellTyped] at hw; done) | simp [toJs, JsShown]
  | .bigInt _, t, hw, hn => by cases t <;> first | (simp [WellTyped] at hw; done) | simp [toJs, JsShown]
  | .groupElement _, t, hw, hn => by cases t <;> first | (simp [WellTyped] at hw; done) | simp [toJs, JsShown]
  | .sigmaProp _, t, hw, hn => by cases t <;> first | (simp [WellTyped] at hw; done) | simp [toJs, JsShown]
  | .avlTree _, t, hw, hn => by cases t <;> first | (simp [WellTyped] at hw; done) | simp [toJs, JsShown]
  | .box _, t, hw, hn => by cases t <;> first | (simp [WellTyped] at hw; done) | simp [toJs, JsShown]
  | .collByte _, t, hw, hn => by
    cases t with
    | coll e =>
      rw [WellTyped] at hw
      rw [hw.1]
      simp [toJs, JsShown]
    | _ => simp [WellTyped] at hw
  | .none, t, hw, hn => by cases t <;> simp [WellTyped] at hw
  | .some _, t, hw, hn => by cases t <;> simp [WellTyped] at hw
theorem toJsColl_shown : ∀ (l : List (Literal G B)) (e : SType), AllOf bwf l e → NoEmptyAll l → l ≠ [] →
    ((∃ js, toJsColl l e = .ok js) ↔ JsShown e = true)
  | [], e, _, _, h => absurd rfl h
  | v :: l, e, hw, hn, _ => by
    rw [AllOf] at hw
    rw [NoEmptyAll] at hn
    have ih1 := toJs_shown v e hw.1 hn.1
    rw [toJsColl]
    constructor
    · rintro ⟨js, h⟩
      obtain ⟨j, h1, _⟩ := Outcome.bind_eq_ok.1 h
      exact ih1.1 ⟨j, h1⟩
    · intro h
      obtain ⟨j, h1⟩ := ih1.2 h
      rw [h1, Outcome.bind_ok]
      by_cases hl : l = []
      · subst hl
        simp [toJsColl]
      · obtain ⟨js, h2⟩ := (toJsColl_shown l e hw.2 hn.2 hl).2 h
        rw [h2]
        exact ⟨_, rfl⟩
theorem toJsTuple_shown : ∀ (l : List (Literal G B)) (ts : List SType), Pointwise bwf l ts → NoEmptyAll l →
    ((∃ js, toJsTuple l ts = .ok js) ↔ JsShownAll ts = true)
  | [], ts, hw, _ => by
    cases ts with
    | nil => simp [toJsTuple, JsShownAll]
    | cons t ts => simp [Pointwise] at hw
  | v :: l, ts, hw, hn => by
    cases ts with
    | nil => simp [Pointwise] at hw
    | cons t ts =>
      rw [Pointwise] at hw
      rw [NoEmptyAll] at hn
      have ih1 := toJs_shown v t hw.1 hn.1
      have ih := toJsTuple_shown l ts hw.2 hn.2
      rw [toJsTuple, JsShownAll, Bool.and_eq_true, ← ih1, ← ih]
      constructor
      · rintro ⟨js, h⟩
        obtain ⟨j, h1, h2⟩ := Outcome.bind_eq_ok.1 h
        obtain ⟨js', h3, _⟩ := Outcome.bind_eq_ok.1 h2
        exact ⟨⟨j, h1⟩, ⟨js', h3⟩⟩
      · rintro ⟨⟨j, h1⟩, ⟨js, h2⟩⟩
        rw [h1, Outcome.bind_ok, h2]
        exact ⟨_, rfl⟩
end

theorem numIs_int (i : Int) : NumIs (.fin i 0) i := by
  unfold NumIs
  simp

mutual
/-- What is shown stands for the constant. -/
theorem toJs_form : ∀ (v : Literal G B) (t : SType), WellTyped bwf v t → NoEmpty v → JsSimple t = true →
    ∃ j, toJs v t = .ok j ∧ JsForm j t v
  | .coll e l, t, hw, hn, hs => by
    cases t with
    | coll e' =>
      rw [WellTyped] at hw
      obtain ⟨rfl, h2, _, h4⟩ := hw
      rw [NoEmpty] at hn
      have hs' : JsSimple e = true := by
        rw [JsSimple] at hs
        · exact hs
        · intro e; exact h2 e
      obtain ⟨js, h5, h6⟩ := toJsColl_form l e h4 hn.2 hs'
      refine ⟨.arr js, by rw [toJs, h5]; rfl, ?_⟩
      rw [JsForm]
      refine ⟨rfl, ?_, h6⟩
      rintro rfl
      cases l with
      | nil => exact hn.1 rfl
      | cons v l => simp [JsFormAll] at h6
    | _ => simp [WellTyped] at hw
  | .tup l, t, hw, hn, hs => by
    cases t <;> first | (simp [WellTyped] at hw; done) | (simp [JsSimple] at hs; done)
  | .unit, t, hw, hn, hs => by cases t <;> first | (simp [WellTyped] at hw; done) | (simp [JsSimple] at hs; done)
  | .bool _, t, hw, hn, hs => by cases t <;> first | (simp [WellTyped] at hw; done) | (simp [JsSimple] at hs; done)
  | .byte _, t, hw, hn, hs => by cases t <;> first | (simp [WellTyped] at hw; done) | (simp [JsSimple] at hs; done)
  | .short _, t, hw, hn, hs => by cases t <;> first | (simp [WellTyped] at hw; done) | (simp [JsSimple] at hs; done)
  | .int v, t, hw, hn, hs => by
    cases t with
    | int => exact ⟨_, by rw [toJs], by rw [jsInt, JsForm]; exact numIs_int _⟩
    | _ => simp [WellTyped] at hw
  | .long v, t, hw, hn, hs => by
    cases t with
    | long => exact ⟨_, by rw [toJs], by rw [JsForm]; exact longText_bigText v⟩
    | _ => simp [WellTyped] at hw
  | .bigInt v, t, hw, hn, hs => by
    cases t with
    | bigInt =>
      rw [WellTyped] at hw
      exact ⟨_, by rw [toJs], by rw [JsForm]; exact ⟨rfl, hw.1, hw.2⟩⟩
    | _ => simp [WellTyped] at hw
  | .groupElement _, t, hw, hn, hs => by cases t <;> first | (simp [WellTyped] at hw; done) | (simp [JsSimple] at hs; done)
  | .sigmaProp _, t, hw, hn, hs => by cases t <;> first | (simp [WellTyped] at hw; done) | (simp [JsSimple] at hs; done)
  | .avlTree _, t, hw, hn, hs => by cases t <;> first | (simp [WellTyped] at hw; done) | (simp [JsSimple] at hs; done)
  | .box _, t, hw, hn, hs => by cases t <;> first | (simp [WellTyped] at hw; done) | (simp [JsSimple] at hs; done)
  | .collByte b, t, hw, hn, hs => by
    cases t with
    | coll e =>
      rw [WellTyped] at hw
      exact ⟨_, by rw [toJs], by rw [JsForm]; exact ⟨hw.1, rfl⟩⟩
    | _ => simp [WellTyped] at hw
  | .none, t, hw, hn, hs => by cases t <;> simp [WellTyped] at hw
  | .some _, t, hw, hn, hs => by cases t <;> simp [WellTyped] at hw
theorem toJsColl_form : ∀ (l : List (Literal G B)) (e : SType), AllOf bwf l e → NoEmptyAll l → JsSimple e = true →
    ∃ js, toJsColl l e = .ok js ∧ JsFormAll js e l
  | [], e, _, _, h => ⟨[], by rw [toJsColl], by rw [JsFormAll]; trivial⟩
  | v :: l, e, hw, hn, hs => by
    rw [AllOf] at hw
    rw [NoEmptyAll] at hn
    obtain ⟨j, h1, h2⟩ := toJs_form v e hw.1 hn.1 hs
    obtain ⟨js, h3, h4⟩ := toJsColl_form l e hw.2 hn.2 hs
    exact ⟨j :: js, by rw [toJsColl, h1, Outcome.bind_ok, h3]; rfl, by rw [JsFormAll]; exact ⟨h2, h4⟩⟩
end

mutual
/-- What has a form and is small is well typed. -/
theorem jsForm_typed : ∀ (j : Js) (t : SType) (v : Literal G B), JsForm j t v → JsSmall j → WellTyped bwf v t
  | .other, t, v, h, _ => by simp [JsForm] at h
  | .bool _, t, v, h, _ => by simp [JsForm] at h
  | .num n, t, v, h, _ => by cases t <;> cases v <;> first | (simp [JsForm] at h; done) | simp [WellTyped]
  | .str s, t, v, h, _ => by cases t <;> cases v <;> first | (simp [JsForm] at h; done) | simp [WellTyped]
  | .big i, t, v, h, _ => by
    cases t with
    | bigInt =>
      cases v with
      | bigInt v =>
        rw [JsForm] at h
        rw [WellTyped, h.1]
        exact ⟨h.2.1, h.2.2⟩
      | _ => simp [JsForm] at h
    | _ => simp [JsForm] at h
  | .bytes b, t, v, h, hs => by
    cases t with
    | coll e =>
      cases v with
      | collByte b' =>
        rw [JsForm] at h
        rw [JsSmall] at hs
        rw [WellTyped, h.2]
        exact ⟨h.1, hs⟩
      | _ => simp [JsForm] at h
    | _ => simp [JsForm] at h
  | .arr l, t, v, h, hs => by
    rw [JsSmall] at hs
    cases t with
    | coll e =>
      cases v with
      | coll e' vs =>
        rw [JsForm] at h
        obtain ⟨rfl, hl, h3⟩ := h
        have h4 := jsFormAll_typed l e' vs h3 hs.2
        rw [WellTyped]
        refine ⟨rfl, ?_, by rw [h4.2]; exact hs.1, h4.1⟩
        rintro rfl
        cases l with
        | nil => exact hl rfl
        | cons j l =>
          cases vs with
          | nil => simp [JsFormAll] at h3
          | cons v vs => rw [JsFormAll] at h3; cases j <;> simp [JsForm] at h3
      | _ => simp [JsForm] at h
    | tuple ts =>
      cases v with
      | tup vs =>
        rw [JsForm] at h
        cases l with
        | nil => simp [JsFormTuple] at h
        | cons j l =>
          rw [JsSmallAll] at hs
          have ih := jsFormEach_typed l ts vs
          cases j with
          | str s =>
            rw [JsFormTuple] at h
            have h4 := ih h.2.2.2 hs.2.2
            rw [WellTyped, h4.2]
            exact ⟨h.2.1, h.2.2.1, h4.1⟩
          | _ => simp [JsFormTuple] at h
      | _ => simp [JsForm] at h
    | _ => simp [JsForm] at h
theorem jsFormAll_typed : ∀ (l : List Js) (e : SType) (vs : List (Literal G B)), JsFormAll l e vs → JsSmallAll l →
    AllOf bwf vs e ∧ vs.length = l.length
  | [], e, vs, h, _ => by
    cases vs with
    | nil => simp [AllOf]
    | cons v vs => simp [JsFormAll] at h
  | j :: l, e, vs, h, hs => by
    cases vs with
    | nil => simp [JsFormAll] at h
    | cons v vs =>
      rw [JsFormAll] at h
      rw [JsSmallAll] at hs
      have h1 := jsForm_typed j e v h.1 hs.1
      have h2 := jsFormAll_typed l e vs h.2 hs.2
      rw [AllOf]
      exact ⟨⟨h1, h2.1⟩, by simp [h2.2]⟩
theorem jsFormEach_typed : ∀ (l : List Js) (ts : List SType) (vs : List (Literal G B)), JsFormEach l ts vs → JsSmallAll l →
    Pointwise bwf vs ts ∧ vs.length = l.length
  | [], ts, vs, h, _ => by
    cases ts with
    | nil =>
      cases vs with
      | nil => simp [Pointwise]
      | cons v vs => simp [JsFormEach] at h
    | cons t ts => simp [JsFormEach] at h
  | j :: l, ts, vs, h, hs => by
    cases ts with
    | nil => simp [JsFormEach] at h
    | cons t ts =>
      cases vs with
      | nil => simp [JsFormEach] at h
      | cons v vs =>
        rw [JsFormEach] at h
        rw [JsSmallAll] at hs
        have h1 := jsForm_typed j t v h.1 hs.1
        have h2 := jsFormEach_typed l ts vs h.2 hs.2
        rw [Pointwise]
        exact ⟨⟨h1, h2.1⟩, by simp [h2.2]⟩
end

end
end Verif
