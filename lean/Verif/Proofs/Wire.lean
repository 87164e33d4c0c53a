import Verif.Proofs.WireNum
import Verif.Proofs.Json

/-! The writers produce the forms of `Verif.Wire`. -/

set_option linter.unusedSimpArgs false
set_option linter.unusedVariables false

namespace Verif.Wire

theorem prim_code (t : SType) : SType.primCode t = (prim t).map (BitVec.ofNat 8) := by
  cases t <;> rfl

theorem prim_le (t : SType) {c : Nat} (h : prim t = some c) : 1 ≤ c ∧ c ≤ 8 := by
  cases t <;> simp [prim] at h <;> omega

theorem prim_form (t : SType) {c : Nat} (h : prim t = some c) : SType.ser t = some [BitVec.ofNat 8 c] := by
  cases t <;> simp [prim] at h <;> subst h <;> rfl

theorem ofNat_add (a c : Nat) : (BitVec.ofNat 8 a : Byte) + BitVec.ofNat 8 c = BitVec.ofNat 8 (a + c) := by
  rw [← BitVec.ofNat_add]

theorem coll_packed (e : SType) (enc : Option Bytes) : SType.encColl e enc = match packed 12 e with
    | some c => some [BitVec.ofNat 8 c]
    | none => enc.map (12 :: ·) := by
  unfold SType.encColl
  rw [prim_code]
  cases h : prim e with
  | some c => cases e <;> simp [prim] at h <;> subst h <;> rfl
  | none =>
    cases e <;> simp [prim] at h <;> simp [packed, prim]
    rename_i i
    rw [prim_code]
    cases h' : prim i with
    | none => cases i <;> first | rfl | simp [prim] at h'
    | some c => cases i <;> simp [prim] at h' <;> subst h' <;> rfl

theorem option_packed (e : SType) (enc : Option Bytes) : SType.encOption e enc = match packed 36 e with
    | some c => some [BitVec.ofNat 8 c]
    | none => enc.map (36 :: ·) := by
  unfold SType.encOption
  rw [prim_code]
  cases h : prim e with
  | some c => cases e <;> simp [prim] at h <;> subst h <;> rfl
  | none =>
    cases e <;> simp [prim] at h <;> simp [packed, prim]
    rename_i i
    rw [prim_code]
    cases h' : prim i with
    | none => cases i <;> first | rfl | simp [prim] at h'
    | some c => cases i <;> simp [prim] at h' <;> subst h' <;> rfl

theorem concat_cons (o : Option Bytes) (l : List (Option Bytes)) (b : Bytes) :
    SType.concatOpt (o :: l) = some b ↔ ∃ x y, o = some x ∧ SType.concatOpt l = some y ∧ b = x ++ y := by
  cases o with
  | none => simp [SType.concatOpt]
  | some x =>
    simp only [SType.concatOpt, Option.map_eq_some_iff]
    constructor
    · rintro ⟨y, h, rfl⟩; exact ⟨x, y, rfl, h, rfl⟩
    · rintro ⟨x', y, h1, h, rfl⟩; cases h1; exact ⟨y, h, rfl⟩

mutual
theorem type_form (t : SType) (b : Bytes) : SType.ser t = some b ↔ TypeForm true t b := by
  cases t with
  | coll e =>
    rw [SType.ser, coll_packed, TypeForm]
    cases packed 12 e with
    | some c => simp [eq_comm]
    | none =>
      simp only [Option.map_eq_some_iff]
      constructor
      · rintro ⟨x, h, rfl⟩; exact ⟨x, (type_form e x).1 h, rfl⟩
      · rintro ⟨x, h, rfl⟩; exact ⟨x, (type_form e x).2 h, rfl⟩
  | option e =>
    rw [SType.ser, option_packed, TypeForm]
    cases packed 36 e with
    | some c => simp [eq_comm]
    | none =>
      simp only [Option.map_eq_some_iff]
      constructor
      · rintro ⟨x, h, rfl⟩; exact ⟨x, (type_form e x).1 h, rfl⟩
      · rintro ⟨x, h, rfl⟩; exact ⟨x, (type_form e x).2 h, rfl⟩
  | tuple l =>
    rw [SType.ser]
    have hl := types_form l
    match l, hl with
    | [], hl =>
      simp only [TypeForm, SType.encTuple, Option.map_eq_some_iff, hl]
      constructor <;> (rintro ⟨x, h, rfl⟩; exact ⟨x, h, rfl⟩)
    | [a], hl =>
      simp only [TypeForm, SType.encTuple, Option.map_eq_some_iff, hl]
      constructor <;> (rintro ⟨x, h, rfl⟩; exact ⟨x, h, rfl⟩)
    | [a, c, d], hl =>
      simp only [TypeForm, SType.encTuple, Option.map_eq_some_iff, hl]
      constructor <;> (rintro ⟨x, h, rfl⟩; exact ⟨x, h, rfl⟩)
    | [a, c, d, e], hl =>
      simp only [TypeForm, SType.encTuple, Option.map_eq_some_iff, hl]
      constructor <;> (rintro ⟨x, h, rfl⟩; exact ⟨x, h, rfl⟩)
    | a :: c :: d :: e :: f :: r, hl =>
      simp only [TypeForm, SType.encTuple, Option.map_eq_some_iff, hl]
      constructor <;> (rintro ⟨x, h, rfl⟩; exact ⟨x, h, rfl⟩)
    | [t, u], hl =>
      have ht : ∀ b, SType.ser t = some b ↔ TypeForm true t b := fun b => type_form t b
      have hu : ∀ b, SType.ser u = some b ↔ TypeForm true u b := fun b => type_form u b
      simp only [TypeForm, SType.encTuple, SType.serItems, SType.encPair, prim_code]
      cases h1 : prim t with
      | none =>
        cases h2 : prim u with
        | none =>
          simp only [Option.map_none, Option.bind_eq_bind, Option.bind_eq_some_iff, Option.pure_def, Option.some.injEq]
          constructor
          · rintro ⟨x, hx, y, hy, rfl⟩; exact ⟨x, y, (ht x).1 hx, (hu y).1 hy, rfl⟩
          · rintro ⟨x, y, hx, hy, rfl⟩; exact ⟨x, (ht x).2 hx, y, (hu y).2 hy, rfl⟩
        | some d =>
          simp only [Option.map_none, Option.map_some, Option.map_eq_some_iff, ht]
          rw [show (72 : Byte) = BitVec.ofNat 8 72 from rfl, ofNat_add]
          constructor <;> (rintro ⟨x, h, rfl⟩; exact ⟨x, h, rfl⟩)
      | some c =>
        cases h2 : prim u with
        | none =>
          simp only [Option.map_none, Option.map_some, Option.map_eq_some_iff, hu]
          rw [show (60 : Byte) = BitVec.ofNat 8 60 from rfl, ofNat_add]
          constructor <;> (rintro ⟨x, h, rfl⟩; exact ⟨x, h, rfl⟩)
        | some d =>
          have hc := prim_le t h1
          have hd := prim_le u h2
          have hcd : (BitVec.ofNat 8 c = BitVec.ofNat 8 d ∧ BitVec.ofNat 8 c ≠ (3 : Byte)) ↔
              (c = d ∧ ¬ c = 3) := by
            have e1 : (BitVec.ofNat 8 c = BitVec.ofNat 8 d) ↔ c = d := by
              constructor
              · intro h
                have := congrArg BitVec.toNat h
                simp only [BitVec.toNat_ofNat] at this
                omega
              · rintro rfl; rfl
            have e2 : (BitVec.ofNat 8 c = (3 : Byte)) ↔ c = 3 := by
              constructor
              · intro h
                have := congrArg BitVec.toNat h
                simp only [BitVec.toNat_ofNat] at this
                have h3 : (3 : Byte).toNat = 3 := rfl
                omega
              · rintro rfl; rfl
            rw [e1, ne_eq, e2]
          simp only [Option.map_some, hcd, true_and]
          by_cases hh : c = d ∧ ¬ c = 3
          · rw [if_pos hh, if_pos hh, show (84 : Byte) = BitVec.ofNat 8 84 from rfl, ofNat_add]
            simp [eq_comm]
          · rw [if_neg hh, if_neg hh, show (60 : Byte) = BitVec.ofNat 8 60 from rfl, ofNat_add]
            simp only [Option.map_eq_some_iff, hu]
            constructor <;> (rintro ⟨x, h, rfl⟩; exact ⟨x, h, rfl⟩)
  | typeVar n => simp [SType.ser, TypeForm, eq_comm]
  | func d r p => simp [SType.ser, TypeForm]
  | _ => simp [SType.ser, TypeForm, single, prim, eq_comm]
theorem types_form (l : List SType) (b : Bytes) : SType.concatOpt (SType.serItems l) = some b ↔ TypesForm true l b := by
  cases l with
  | nil => simp [SType.serItems, SType.concatOpt, TypesForm, eq_comm]
  | cons t l =>
    rw [SType.serItems, concat_cons, TypesForm]
    constructor
    · rintro ⟨x, y, h1, h2, rfl⟩; exact ⟨x, y, (type_form t x).1 h1, (types_form l y).1 h2, rfl⟩
    · rintro ⟨x, y, h1, h2, rfl⟩; exact ⟨x, y, (type_form t x).2 h1, (types_form l y).2 h2, rfl⟩
end

mutual
theorem gap_form (t : SType) (h : NoShorts t) (b : Bytes) : TypeForm true t b ↔ TypeForm false t b := by
  cases t with
  | coll e =>
    have := gap_form e (by simpa [NoShorts] using h)
    simp only [TypeForm, this]
  | option e =>
    have := gap_form e (by simpa [NoShorts] using h)
    simp only [TypeForm, this]
  | tuple l =>
    rw [NoShorts] at h
    obtain ⟨h0, h⟩ := h
    have hl := gaps_form l h
    match l, h0, h, hl with
    | [], h0, h, hl => simp only [TypeForm, hl]
    | [a], h0, h, hl => simp only [TypeForm, hl]
    | [a, c, d], h0, h, hl => simp only [TypeForm, hl]
    | [a, c, d, e], h0, h, hl => simp only [TypeForm, hl]
    | a :: c :: d :: e :: f :: r, h0, h, hl => simp only [TypeForm, hl]
    | [t, u], h0, h, hl =>
      simp only [AllNoShorts] at h
      have ht := gap_form t h.1
      have hu := gap_form u h.2.1
      simp only [TypeForm, ht, hu]
      cases h1 : prim t with
      | none => cases h2 : prim u <;> simp
      | some c =>
        cases h2 : prim u with
        | none => simp
        | some d =>
          have : ¬ (c = d ∧ c = 3) := by
            rintro ⟨rfl, rfl⟩
            apply h0
            cases t <;> simp [prim] at h1
            cases u <;> simp [prim] at h2
            rfl
          by_cases hcd : c = d <;> simp_all
  | _ => simp [TypeForm]
theorem gaps_form (l : List SType) (h : AllNoShorts l) (b : Bytes) : TypesForm true l b ↔ TypesForm false l b := by
  cases l with
  | nil => simp [TypesForm]
  | cons t l =>
    rw [AllNoShorts] at h
    simp only [TypesForm, gap_form t h.1, gaps_form l h.2]
end

variable {G B T : Type} [DecidableEq G]

theorem point_eq (pc : PointCodec G) (g : G) : putPoint pc g = point pc g := rfl

theorem count16 (n : Nat) : putU16 (BitVec.ofNat 16 n) = vlq (n % 2 ^ 16) := by rw [putU16_eq, BitVec.toNat_ofNat]
theorem count32 (n : Nat) : putU32 (BitVec.ofNat 32 n) = vlq (n % 2 ^ 32) := by rw [putU32_eq, BitVec.toNat_ofNat]

mutual
theorem sigma_eq (pc : PointCodec G) (p : SigmaBoolean G) : p.ser pc = sigma pc p := by
  cases p with
  | trivial b => cases b <;> rfl
  | dlog h => rfl
  | dht g h u v => rfl
  | cand l => rw [SigmaBoolean.ser, sigma, count16, sigmas_eq pc l]; rfl
  | cor l => rw [SigmaBoolean.ser, sigma, count16, sigmas_eq pc l]; rfl
  | cth k l =>
    rw [SigmaBoolean.ser, sigma, count16, sigmas_eq pc l, putU16_eq, BitVec.toNat_setWidth,
      Nat.mod_eq_of_lt (by have := k.isLt; omega)]
    rfl
theorem sigmas_eq (pc : PointCodec G) (l : List (SigmaBoolean G)) : SigmaBoolean.serList pc l = sigmas pc l := by
  cases l with
  | nil => rfl
  | cons p l => rw [SigmaBoolean.serList, sigmas, sigma_eq pc p, sigmas_eq pc l]
end

theorem avl_eq (a : AvlTreeData) : putAvl a = avl a := by
  unfold putAvl avl
  rw [putU32_eq]
  cases a.valueLength with
  | none => rfl
  | some v => simp only [putOptBox, putU32_eq]; rfl

theorem len16_ok {n : Nat} {b : Bytes} (h : Literal.putLen16 n = .ok b) : n < 2 ^ 16 ∧ b = vlq n := by
  unfold Literal.putLen16 putUsizeAsU16 at h
  by_cases hn : n < 2 ^ 16
  · rw [if_pos hn] at h
    cases h
    exact ⟨hn, by rw [count16, Nat.mod_eq_of_lt hn]⟩
  · rw [if_neg hn] at h; cases h

theorem cnt16_ok {n : Nat} {b : Bytes} (h : putCount16 n = .ok b) : n < 2 ^ 16 ∧ b = vlq n := by
  unfold putCount16 putUsizeAsU16 at h
  by_cases hn : n < 2 ^ 16
  · rw [if_pos hn] at h
    cases h
    exact ⟨hn, by rw [count16, Nat.mod_eq_of_lt hn]⟩
  · rw [if_neg hn] at h; cases h

theorem cnt32_ok {n : Nat} {b : Bytes} (h : putCount32 n = .ok b) : n < 2 ^ 32 ∧ b = vlq n := by
  unfold putCount32 at h
  by_cases hn : n < 2 ^ 32
  · rw [if_pos hn] at h
    cases h
    exact ⟨hn, by rw [count32, Nat.mod_eq_of_lt hn]⟩
  · rw [if_neg hn] at h; cases h

theorem cnt8_ok {n : Nat} {b : Bytes} (h : putCount8 n = .ok b) : n < 256 ∧ b = [BitVec.ofNat 8 n] := by
  unfold putCount8 at h
  by_cases hn : n < 2 ^ 8
  · rw [if_pos hn] at h
    cases h
    exact ⟨hn, rfl⟩
  · rw [if_neg hn] at h; cases h

theorem bools_of (l : List (Literal G B)) : ∀ {bs : List Bool}, Literal.boolsOf l = some bs → l = bs.map .bool := by
  induction l with
  | nil => intro bs h; simp [Literal.boolsOf] at h; subst h; rfl
  | cons x l ih =>
    intro bs h
    rw [Literal.boolsOf] at h
    cases hx : Literal.boolOf x with
    | none => rw [hx] at h; cases h
    | some b =>
      cases hl : Literal.boolsOf l with
      | none => rw [hx, hl] at h; cases h
      | some r =>
        rw [hx, hl] at h
        cases h
        cases x <;> simp [Literal.boolOf] at hx
        subst hx
        rw [ih hl]; rfl

mutual
theorem data_form (E : Sers G B T) (v : Literal G B) (b : Bytes) (h : Literal.ser E.pc E.bc v = .ok b) : DataForm E v b := by
  cases v with
  | unit => cases h; rfl
  | bool x => cases h; cases x <;> rfl
  | byte v => cases h; rfl
  | short v => cases h; exact putI16_eq v
  | int v => cases h; exact putI32_eq v
  | long v => cases h; exact putI64_eq v
  | bigInt n => cases h; exact ⟨toSignedBe n, isTwos_toSignedBe n, by rw [count16]⟩
  | groupElement g => cases h; rfl
  | sigmaProp p => cases h; exact sigma_eq E.pc p
  | avlTree a => cases h; exact avl_eq a
  | box x => exact h
  | collByte l =>
    rw [Literal.ser] at h
    obtain ⟨n, hn, h⟩ := json_bind_ok.1 h
    cases h
    obtain ⟨h1, rfl⟩ := len16_ok hn
    exact ⟨h1, rfl⟩
  | coll e l =>
    rw [Literal.ser] at h
    obtain ⟨n, hn, h⟩ := json_bind_ok.1 h
    obtain ⟨h1, rfl⟩ := len16_ok hn
    rw [DataForm]
    refine ⟨h1, ?_⟩
    by_cases he : e = .bool
    · subst he
      left
      simp only [Literal.isBoolT, if_true] at h
      cases hb : Literal.boolsOf l with
      | none => rw [hb] at h; cases h
      | some bs =>
        rw [hb] at h
        cases h
        exact ⟨rfl, bs, _, bools_of l hb, putBits_bits bs, rfl⟩
    · right
      have : Literal.isBoolT e = false := by cases e <;> first | rfl | exact absurd rfl he
      rw [this] at h
      simp only [Bool.false_eq_true, if_false] at h
      obtain ⟨d, hd, h⟩ := json_bind_ok.1 h
      cases h
      exact ⟨he, d, datas_form E l d hd, rfl⟩
  | tup l => rw [Literal.ser] at h; rw [DataForm]; exact datas_form E l b h
  | none => cases h
  | some v => cases h
theorem datas_form (E : Sers G B T) (l : List (Literal G B)) (b : Bytes) (h : Literal.serAll E.pc E.bc l = .ok b) :
    AllData E l b := by
  cases l with
  | nil => cases h; rfl
  | cons v l =>
    rw [Literal.serAll] at h
    obtain ⟨x, hx, h⟩ := json_bind_ok.1 h
    obtain ⟨y, hy, h⟩ := json_bind_ok.1 h
    cases h
    exact ⟨x, y, data_form E v x hx, datas_form E l y hy, rfl⟩
end

theorem const_form (E : Sers G B T) (c : Constant G B) (b : Bytes) (h : c.ser E.pc E.bc = .ok b) : ConstForm E (TypeForm true) c b := by
  unfold Constant.ser at h
  cases ht : c.tpe.ser with
  | none => rw [ht] at h; cases h
  | some t =>
    rw [ht] at h
    obtain ⟨d, hd, h⟩ := json_bind_ok.1 h
    cases h
    exact ⟨t, d, (type_form _ _).1 ht, data_form E _ _ hd, rfl⟩

mutual
theorem item_form (E : Sers G B T) (i : RItem G B) (b : Bytes) (h : i.ser E = .ok b) : ItemForm E (TypeForm true) i b := by
  cases i with
  | const c => rw [RItem.ser] at h; rw [ItemForm]; exact const_form E c b h
  | tuple l =>
    rw [RItem.ser] at h
    obtain ⟨x, hx, h⟩ := json_bind_ok.1 h
    cases h
    exact ⟨x, items_form E l x hx, rfl⟩
theorem items_form (E : Sers G B T) (l : List (RItem G B)) (b : Bytes) (h : RItem.serAll E l = .ok b) :
    ItemsForm E (TypeForm true) l b := by
  cases l with
  | nil => cases h; rfl
  | cons i l =>
    rw [RItem.serAll] at h
    obtain ⟨x, hx, h⟩ := json_bind_ok.1 h
    obtain ⟨y, hy, h⟩ := json_bind_ok.1 h
    cases h
    exact ⟨x, y, item_form E i x hx, items_form E l y hy, rfl⟩
end

theorem reg_form (E : Sers G B T) (v : RegVal G B) (b : Bytes) (h : v.ser E = .ok b) : RegForm E (TypeForm true) v b := by
  cases v with
  | parsed c => rw [RegVal.ser] at h; simpa [RegForm, ItemForm] using item_form E _ b h
  | tupleExpr l => rw [RegVal.ser] at h; simpa [RegForm] using item_form E _ b h
  | invalid x => cases h

theorem many_form {α : Type} {f : α → Outcome Bytes} {P : α → Bytes → Prop} (hf : ∀ a b, f a = .ok b → P a b) :
    ∀ (l : List α) (b : Bytes), serMany f l = .ok b → Each P l b := by
  intro l
  induction l with
  | nil => intro b h; cases h; exact ⟨[], .nil, rfl⟩
  | cons a l ih =>
    intro b h
    rw [serMany] at h
    obtain ⟨x, hx, h⟩ := json_bind_ok.1 h
    obtain ⟨y, hy, h⟩ := json_bind_ok.1 h
    cases h
    obtain ⟨bs, h1, rfl⟩ := ih y hy
    exact ⟨x :: bs, .cons (hf a x hx) h1, rfl⟩

theorem index_of (s : IdSet) (x : TokenId) : ∀ {i : Nat}, IdSet.indexOf s x = some i →
    s[i]? = some x ∧ ∀ j, j < i → s[j]? ≠ some x := by
  induction s with
  | nil => intro i h; simp [IdSet.indexOf] at h
  | cons y s ih =>
    intro i h
    rw [IdSet.indexOf] at h
    by_cases hy : y = x
    · rw [if_pos hy] at h
      cases h
      exact ⟨by simp [hy], by intro j hj; omega⟩
    · rw [if_neg hy] at h
      simp only [Option.map_eq_some_iff] at h
      obtain ⟨k, hk, rfl⟩ := h
      obtain ⟨h1, h2⟩ := ih hk
      refine ⟨by simpa using h1, ?_⟩
      intro j hj
      cases j with
      | zero => simpa using hy
      | succ j => simpa using h2 j (by omega)

theorem token_form (ids : Option IdSet) (t : Token) (b : Bytes) (h : serToken ids t = .ok b) : TokenForm ids t b := by
  unfold serToken at h
  have ha : putU64 (BitVec.ofNat 64 t.2) = vlq (t.2 % 2 ^ 64) := by rw [putU64_eq, BitVec.toNat_ofNat]
  rw [ha] at h
  cases ids with
  | none => cases h; rfl
  | some s =>
    simp only at h
    cases hi : IdSet.indexOf s t.1 with
    | none => rw [hi] at h; cases h
    | some i =>
      rw [hi] at h
      obtain ⟨x, hx, h⟩ := json_bind_ok.1 h
      cases h
      obtain ⟨h1, rfl⟩ := cnt32_ok hx
      obtain ⟨h2, h3⟩ := index_of s t.1 hi
      exact ⟨i, h2, h3, rfl⟩

theorem with_form (E : Sers G B T) (ids : Option IdSet) (c : BoxCand G B T) (tree b : Bytes) (ht : E.tc.ser c.tree = .ok tree)
    (h : serBoxWith E c.value tree c.tokens c.regs c.height ids = .ok b) : CandForm E (TypeForm true) ids c b := by
  unfold serBoxWith at h
  obtain ⟨n, hn, h⟩ := json_bind_ok.1 h
  obtain ⟨ts, hts, h⟩ := json_bind_ok.1 h
  obtain ⟨rs, hrs, h⟩ := json_bind_ok.1 h
  cases h
  unfold Regs.ser at hrs
  obtain ⟨r, hr, hrs⟩ := json_bind_ok.1 hrs
  cases hrs
  obtain ⟨h1, rfl⟩ := cnt8_ok hn
  refine ⟨tree, ts, r, ht, h1, many_form (token_form ids) _ _ hts, many_form (reg_form E) _ _ hr, ?_⟩
  have : BoxValue.ser c.value = vlq (c.value % 2 ^ 64) := by
    rw [BoxValue.ser, putU64_eq, BitVec.toNat_ofNat]
  rw [this, putU32_eq]
  simp [putU8]

theorem cand_form (E : Sers G B T) (ids : Option IdSet) (c : BoxCand G B T) (b : Bytes) (h : c.serWith E ids = .ok b) :
    CandForm E (TypeForm true) ids c b := by
  unfold BoxCand.serWith at h
  obtain ⟨t, ht, h⟩ := json_bind_ok.1 h
  exact with_form E ids c t b ht h

theorem box_form (E : Sers G B T) (x : EBox G B T) (b : Bytes) (h : x.ser E = .ok b) : BoxForm E (TypeForm true) x b := by
  unfold EBox.ser at h
  obtain ⟨t, ht, h⟩ := json_bind_ok.1 h
  obtain ⟨c, hc, h⟩ := json_bind_ok.1 h
  cases h
  exact ⟨c, with_form E none ⟨x.value, x.tree, x.tokens, x.regs, x.height⟩ t c ht hc, by rw [putU16_eq]⟩

theorem ext_form (E : Sers G B T) (m : Extension G B) (b : Bytes) (h : m.ser E = .ok b) : ExtForm E (TypeForm true) m b := by
  unfold Extension.ser at h
  obtain ⟨x, hx, h⟩ := json_bind_ok.1 h
  cases h
  refine ⟨x, many_form ?_ _ _ hx, rfl⟩
  intro p y hp
  unfold Extension.serEntry at hp
  obtain ⟨c, hc, hp⟩ := json_bind_ok.1 hp
  cases hp
  exact ⟨c, const_form E _ _ hc, rfl⟩

theorem input_form (E : Sers G B T) (i : Input G B) (b : Bytes) (h : i.ser E = .ok b) : InputForm E (TypeForm true) i b := by
  unfold Input.ser at h
  obtain ⟨p, hp, h⟩ := json_bind_ok.1 h
  cases h
  unfold ProverResult.ser at hp
  obtain ⟨e, he, hp⟩ := json_bind_ok.1 hp
  cases hp
  refine ⟨e, ext_form E _ _ he, ?_⟩
  cases i.proof.proof with
  | empty => simp only [ProofBytes.ser, proofOf, putU16_eq]; simp
  | some p => simp only [ProofBytes.ser, proofOf, count16]; simp

theorem firsts_go {α : Type} [DecidableEq α] (l : List α) : ∀ s : List α,
    l.foldl (fun s x => if x ∈ s then s else s ++ [x]) s = s ++ (firsts l).filter (· ∉ s) := by
  induction l with
  | nil => intro s; simp [firsts]
  | cons x l ih =>
    intro s
    rw [List.foldl_cons, ih, firsts]
    by_cases hx : x ∈ s
    · rw [if_pos hx, List.filter_cons_of_neg (by simpa using hx), List.filter_filter]
      congr 1
      apply List.filter_congr
      intro y hy
      by_cases hys : y ∈ s
      · simp [hys]
      · have : y ≠ x := by rintro rfl; exact hys hx
        simp [hys, this]
    · rw [if_neg hx, List.filter_cons_of_pos (by simpa using hx), List.filter_filter, List.append_assoc]
      congr 1
      rw [List.singleton_append]
      congr 1
      apply List.filter_congr
      intro y hy
      by_cases hys : y ∈ s <;> by_cases hyx : y = x <;> simp [hys, hyx]

theorem ids_eq (cs : List (BoxCand G B T)) : distinctTokenIds cs = firsts (tokenIds cs) := by
  unfold distinctTokenIds IdSet.ofList IdSet.add tokenIds
  have := firsts_go (cs.flatMap fun c => (c.tokens.getD []).map Prod.fst) []
  simp only [List.nil_append, List.not_mem_nil, not_false_eq_true, decide_true, List.filter_true] at this
  rw [← this]
  congr 1
  funext s x
  by_cases h : x ∈ s <;> simp [h]

theorem many_ok (l : List Bytes) : ∀ {b : Bytes}, serMany Outcome.ok l = .ok b → b = l.flatten := by
  induction l with
  | nil => intro b h; cases h; rfl
  | cons x l ih =>
    intro b h
    rw [serMany] at h
    obtain ⟨y, hy, h⟩ := json_bind_ok.1 h
    obtain ⟨z, hz, h⟩ := json_bind_ok.1 h
    cases hy
    cases h
    rw [ih hz, List.flatten_cons]

theorem data_inputs_form (ds : Option (List Bytes)) (b : Bytes) (h : serDataInputs ds = .ok b) :
    (ds.getD []).length < 2 ^ 16 ∧ b = vlq (ds.getD []).length ++ (ds.getD []).flatten := by
  cases ds with
  | none =>
    cases h
    refine ⟨by decide, ?_⟩
    rw [putU16_eq]; simp
  | some l =>
    rw [serDataInputs] at h
    obtain ⟨n, hn, h⟩ := json_bind_ok.1 h
    obtain ⟨x, hx, h⟩ := json_bind_ok.1 h
    cases h
    obtain ⟨h1, rfl⟩ := cnt16_ok hn
    exact ⟨h1, by rw [many_ok l hx]; rfl⟩

theorem tx_form (E : Sers G B T) (is : List (Input G B)) (ds : Option (List Bytes)) (cs : List (BoxCand G B T)) (b : Bytes)
    (h : serTxParts E is ds cs = .ok b) : TxForm E (TypeForm true) is ds cs b := by
  unfold serTxParts at h
  obtain ⟨ni, hni, h⟩ := json_bind_ok.1 h
  obtain ⟨bi, hbi, h⟩ := json_bind_ok.1 h
  obtain ⟨bd, hbd, h⟩ := json_bind_ok.1 h
  obtain ⟨nt, hnt, h⟩ := json_bind_ok.1 h
  obtain ⟨bt, hbt, h⟩ := json_bind_ok.1 h
  obtain ⟨no, hno, h⟩ := json_bind_ok.1 h
  obtain ⟨bo, hbo, h⟩ := json_bind_ok.1 h
  cases h
  rw [ids_eq] at hnt hbt hbo
  obtain ⟨h1, rfl⟩ := cnt16_ok hni
  obtain ⟨h2, rfl⟩ := data_inputs_form ds bd hbd
  obtain ⟨h3, rfl⟩ := cnt32_ok hnt
  obtain ⟨h4, rfl⟩ := cnt16_ok hno
  refine ⟨h1, h2, h3, h4, bi, bo, many_form (input_form E) _ _ hbi, many_form (cand_form E _) _ _ hbo, ?_⟩
  rw [many_ok _ hbt]
  simp only [List.append_assoc]

theorem four_eq (v : BitVec 32) : putU32Be v = four v.toNat := by
  unfold putU32Be u32ToBe four
  refine congrArg₂ List.cons ?_ (congrArg₂ List.cons ?_ (congrArg₂ List.cons ?_ (congrArg₂ List.cons ?_ rfl))) <;>
    (apply BitVec.eq_of_toNat_eq; simp [BitVec.toNat_setWidth, BitVec.toNat_ushiftRight, Nat.shiftRight_eq_div_pow])

theorem header_form (h : Header G) : h.serWithoutPow = headerForm h := by
  unfold Header.serWithoutPow headerForm
  rw [putU64_eq, four_eq, putU32_eq, BitVec.toNat_setWidth]
  by_cases hv : h.version.toNat ≤ 1
  · rw [if_pos hv, if_neg (by omega)]; rfl
  · rw [if_neg hv, if_pos (by omega)]; rfl

theorem solution_form (pc : PointCodec G) (v : Byte) (s : AutolykosSolution G) (b : Bytes) (h : s.ser pc v = .ok b) :
    SolutionForm pc v s b := by
  unfold AutolykosSolution.ser at h
  unfold SolutionForm
  by_cases hv : v = 1
  · rw [if_pos hv] at h ⊢
    cases hw : s.onetimePk with
    | none => rw [hw] at h; cases h
    | some w =>
      cases hd : s.distance with
      | none => rw [hw, hd] at h; cases h
      | some d =>
        rw [hw, hd] at h
        cases h
        exact ⟨w, d, toSignedBe d, rfl, rfl, isTwos_toSignedBe d, rfl⟩
  · rw [if_neg hv] at h ⊢
    cases h; rfl

end Verif.Wire
