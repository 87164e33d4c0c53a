import Verif.Proofs.Wire

/-! Scripts and trees are written in the forms of `Verif.Wire`. -/

set_option linter.unusedSimpArgs false
set_option linter.unusedVariables false

namespace Verif.Wire
open Expr
variable {G B T : Type} [DecidableEq G]

theorem op_code (o : SOp) : o.code = BitVec.ofNat 8 (opCode o) := by cases o <;> rfl
theorem bin_code (k : BinK) : k.code = BitVec.ofNat 8 (binCode k) := by cases k <;> rfl

theorem put_type {t : SType} {b : Bytes} (h : putType t = .ok b) : TypeForm true t b := by
  unfold putType at h
  cases ht : t.ser with
  | none => rw [ht] at h; cases h
  | some x => rw [ht] at h; cases h; exact (type_form _ _).1 ht

theorem args_form (l : List (BitVec 32 × SType)) : ∀ {b : Bytes}, putArgs l = .ok b →
    Each (fun a z => ∃ t, TypeForm true a.2 t ∧ z = vlq a.1.toNat ++ t) l b := by
  induction l with
  | nil => intro b h; cases h; exact ⟨[], .nil, rfl⟩
  | cons a l ih =>
    intro b h
    rw [putArgs] at h
    obtain ⟨t, ht, h⟩ := json_bind_ok.1 h
    obtain ⟨r, hr, h⟩ := json_bind_ok.1 h
    cases h
    obtain ⟨bs, h1, rfl⟩ := ih hr
    exact ⟨(vlq a.1.toNat ++ t) :: bs, .cons ⟨t, put_type ht, rfl⟩ h1, by rw [putU32_eq]; rfl⟩

theorem bool_const {e : Expr G B} {x : Literal G B} {b : Bool} (h : boolConst? e = some x) (hx : x.boolOf = some b) :
    e = .const ⟨.bool, .bool b⟩ := by
  cases e <;> simp [boolConst?] at h
  rename_i c
  obtain ⟨t, v⟩ := c
  simp only at h
  cases t <;> simp at h
  subst h
  cases v <;> simp [Literal.boolOf] at hx
  rw [hx]

theorem pair_const {l r : Expr G B} {p : Bool × Bool} (h : boolPair l r = some p) :
    boolConst? l = some (.bool p.1) ∧ boolConst? r = some (.bool p.2) := by
  unfold boolPair at h
  split at h
  · cases h; exact ⟨rfl, rfl⟩
  · cases h

mutual
theorem expr_form (E : Sers G B T) (e : Expr G B) (b : Bytes) (w : WStore G B) (h : Expr.ser E e none = .ok (b, w)) :
    w = none ∧ ExprForm E (TypeForm true) e b := by
  cases e with
  | const c =>
    rw [Expr.ser] at h
    obtain ⟨x, hx, h⟩ := json_bind_ok.1 h
    cases h
    rw [ExprForm]
    exact ⟨rfl, const_form E c _ hx⟩
  | placeholder id t => rw [Expr.ser] at h; cases h; rw [ExprForm, putU32_eq]; exact ⟨rfl, rfl⟩
  | valUse id t => rw [Expr.ser] at h; cases h; rw [ExprForm, putU32_eq]; exact ⟨rfl, rfl⟩
  | bools l => rw [Expr.ser] at h; cases h; rw [ExprForm, count16]; exact ⟨rfl, _, putBits_bits l, rfl⟩
  | op o l =>
    rw [Expr.ser] at h
    obtain ⟨⟨x, w1⟩, hx, h⟩ := json_bind_ok.1 h
    obtain ⟨rfl, h1⟩ := exprs_form E l x w1 hx
    cases h
    rw [ExprForm]
    exact ⟨rfl, x, h1, by rw [op_code]; rfl⟩
  | bin k l r =>
    rw [Expr.ser] at h
    rw [ExprForm]
    cases hl : boolConst? l with
    | some x =>
      cases hr : boolConst? r with
      | some y =>
        simp only [hl, hr] at h
        cases hx : x.boolOf with
        | none => simp only [hx] at h; cases h
        | some bx =>
          cases hy : y.boolOf with
          | none => simp only [hx, hy] at h; cases h
          | some bz =>
            simp only [hx, hy] at h
            cases h
            rw [bool_const hl hx, bool_const hr hy]
            exact ⟨rfl, _, putBits_bits _, by rw [bin_code]; rfl⟩
      | none =>
        simp only [hl, hr] at h
        cases hp : boolPair l r with
        | some p => have := (pair_const hp).2; rw [hr] at this; cases this
        | none =>
          obtain ⟨⟨x, w1⟩, hx, h⟩ := json_bind_ok.1 h
          obtain ⟨rfl, h1⟩ := expr_form E l x w1 hx
          obtain ⟨⟨y, w2⟩, hy, h⟩ := json_bind_ok.1 h
          obtain ⟨rfl, h2⟩ := expr_form E r y w2 hy
          cases h
          exact ⟨rfl, x, y, h1, h2, by rw [bin_code]; rfl⟩
    | none =>
      simp only [hl] at h
      cases hp : boolPair l r with
      | some p => have := (pair_const hp).1; rw [hl] at this; cases this
      | none =>
        obtain ⟨⟨x, w1⟩, hx, h⟩ := json_bind_ok.1 h
        obtain ⟨rfl, h1⟩ := expr_form E l x w1 hx
        obtain ⟨⟨y, w2⟩, hy, h⟩ := json_bind_ok.1 h
        obtain ⟨rfl, h2⟩ := expr_form E r y w2 hy
        cases h
        exact ⟨rfl, x, y, h1, h2, by rw [bin_code]; rfl⟩
  | cast up e t =>
    rw [Expr.ser] at h
    obtain ⟨⟨x, w1⟩, hx, h⟩ := json_bind_ok.1 h
    obtain ⟨rfl, h1⟩ := expr_form E e x w1 hx
    obtain ⟨y, hy, h⟩ := json_bind_ok.1 h
    cases h
    rw [ExprForm]
    exact ⟨rfl, x, y, h1, put_type hy, by cases up <;> rfl⟩
  | extractReg e r t =>
    rw [Expr.ser] at h
    obtain ⟨⟨x, w1⟩, hx, h⟩ := json_bind_ok.1 h
    obtain ⟨rfl, h1⟩ := expr_form E e x w1 hx
    obtain ⟨y, hy, h⟩ := json_bind_ok.1 h
    cases h
    rw [ExprForm]
    exact ⟨rfl, x, y, h1, put_type hy, rfl⟩
  | selectField e i =>
    rw [Expr.ser] at h
    obtain ⟨⟨x, w1⟩, hx, h⟩ := json_bind_ok.1 h
    obtain ⟨rfl, h1⟩ := expr_form E e x w1 hx
    cases h
    rw [ExprForm]
    exact ⟨rfl, x, h1, rfl⟩
  | getVar i t =>
    rw [Expr.ser] at h
    obtain ⟨y, hy, h⟩ := json_bind_ok.1 h
    cases h
    rw [ExprForm]
    exact ⟨rfl, y, put_type hy, rfl⟩
  | deserCtx t i =>
    rw [Expr.ser] at h
    obtain ⟨y, hy, h⟩ := json_bind_ok.1 h
    cases h
    rw [ExprForm]
    exact ⟨rfl, y, put_type hy, rfl⟩
  | deserReg r t d =>
    rw [Expr.ser] at h
    obtain ⟨y, hy, h⟩ := json_bind_ok.1 h
    obtain ⟨⟨z, w1⟩, hz, h⟩ := json_bind_ok.1 h
    obtain ⟨rfl, h1⟩ := maybe_form E d z w1 hz
    cases h
    rw [ExprForm]
    exact ⟨rfl, y, z, put_type hy, h1, rfl⟩
  | byIndex e i d =>
    rw [Expr.ser] at h
    obtain ⟨⟨x, w1⟩, hx, h⟩ := json_bind_ok.1 h
    obtain ⟨rfl, h1⟩ := expr_form E e x w1 hx
    obtain ⟨⟨y, w2⟩, hy, h⟩ := json_bind_ok.1 h
    obtain ⟨rfl, h2⟩ := expr_form E i y w2 hy
    obtain ⟨⟨z, w3⟩, hz, h⟩ := json_bind_ok.1 h
    obtain ⟨rfl, h3⟩ := maybe_form E d z w3 hz
    cases h
    rw [ExprForm]
    exact ⟨rfl, x, y, z, h1, h2, h3, rfl⟩
  | createAvl f g k v =>
    rw [Expr.ser] at h
    obtain ⟨⟨x, w1⟩, hx, h⟩ := json_bind_ok.1 h
    obtain ⟨rfl, h1⟩ := expr_form E f x w1 hx
    obtain ⟨⟨y, w2⟩, hy, h⟩ := json_bind_ok.1 h
    obtain ⟨rfl, h2⟩ := expr_form E g y w2 hy
    obtain ⟨⟨z, w3⟩, hz, h⟩ := json_bind_ok.1 h
    obtain ⟨rfl, h3⟩ := expr_form E k z w3 hz
    obtain ⟨⟨u, w4⟩, hu, h⟩ := json_bind_ok.1 h
    obtain ⟨rfl, h4⟩ := maybe_form E v u w4 hu
    cases h
    rw [ExprForm]
    exact ⟨rfl, x, y, z, u, h1, h2, h3, h4, rfl⟩
  | coll t l =>
    rw [Expr.ser] at h
    obtain ⟨y, hy, h⟩ := json_bind_ok.1 h
    obtain ⟨⟨x, w1⟩, hx, h⟩ := json_bind_ok.1 h
    obtain ⟨rfl, h1⟩ := exprs_form E l x w1 hx
    cases h
    rw [ExprForm]
    exact ⟨rfl, y, x, put_type hy, h1, by rw [count16]; rfl⟩
  | tuple l =>
    rw [Expr.ser] at h
    obtain ⟨⟨x, w1⟩, hx, h⟩ := json_bind_ok.1 h
    obtain ⟨rfl, h1⟩ := exprs_form E l x w1 hx
    cases h
    rw [ExprForm]
    exact ⟨rfl, x, h1, rfl⟩
  | sigma isAnd l =>
    rw [Expr.ser] at h
    obtain ⟨⟨x, w1⟩, hx, h⟩ := json_bind_ok.1 h
    obtain ⟨rfl, h1⟩ := exprs_form E l x w1 hx
    cases h
    rw [ExprForm]
    exact ⟨rfl, x, h1, by rw [count32]; cases isAnd <;> rfl⟩
  | func l e =>
    rw [Expr.ser] at h
    obtain ⟨y, hy, h⟩ := json_bind_ok.1 h
    obtain ⟨⟨x, w1⟩, hx, h⟩ := json_bind_ok.1 h
    obtain ⟨rfl, h1⟩ := expr_form E e x w1 hx
    cases h
    rw [ExprForm]
    exact ⟨rfl, y, x, args_form l hy, h1, by rw [count32]; rfl⟩
  | apply f l =>
    rw [Expr.ser] at h
    obtain ⟨⟨x, w1⟩, hx, h⟩ := json_bind_ok.1 h
    obtain ⟨rfl, h1⟩ := expr_form E f x w1 hx
    obtain ⟨⟨y, w2⟩, hy, h⟩ := json_bind_ok.1 h
    obtain ⟨rfl, h2⟩ := exprs_form E l y w2 hy
    cases h
    rw [ExprForm]
    exact ⟨rfl, x, y, h1, h2, by rw [count32]; rfl⟩
  | block l e =>
    rw [Expr.ser] at h
    obtain ⟨⟨x, w1⟩, hx, h⟩ := json_bind_ok.1 h
    obtain ⟨rfl, h1⟩ := exprs_form E l x w1 hx
    obtain ⟨⟨y, w2⟩, hy, h⟩ := json_bind_ok.1 h
    obtain ⟨rfl, h2⟩ := expr_form E e y w2 hy
    cases h
    rw [ExprForm]
    exact ⟨rfl, x, y, h1, h2, by rw [count32]; rfl⟩
  | valDef id e =>
    rw [Expr.ser] at h
    obtain ⟨⟨x, w1⟩, hx, h⟩ := json_bind_ok.1 h
    obtain ⟨rfl, h1⟩ := expr_form E e x w1 hx
    cases h
    rw [ExprForm]
    exact ⟨rfl, x, h1, by rw [putU32_eq]; rfl⟩
  | method ti mi s e l =>
    rw [Expr.ser] at h
    obtain ⟨⟨x, w1⟩, hx, h⟩ := json_bind_ok.1 h
    obtain ⟨rfl, h1⟩ := expr_form E e x w1 hx
    obtain ⟨⟨y, w2⟩, hy, h⟩ := json_bind_ok.1 h
    obtain ⟨rfl, h2⟩ := exprs_form E l y w2 hy
    cases h
    rw [ExprForm]
    exact ⟨rfl, x, y, h1, h2, by rw [count32]; rfl⟩
  | property ti mi s e =>
    rw [Expr.ser] at h
    obtain ⟨⟨x, w1⟩, hx, h⟩ := json_bind_ok.1 h
    obtain ⟨rfl, h1⟩ := expr_form E e x w1 hx
    cases h
    rw [ExprForm]
    exact ⟨rfl, x, h1, rfl⟩
theorem exprs_form (E : Sers G B T) (l : List (Expr G B)) (b : Bytes) (w : WStore G B)
    (h : Expr.serAll E l none = .ok (b, w)) : w = none ∧ ExprsForm E (TypeForm true) l b := by
  cases l with
  | nil => rw [Expr.serAll] at h; cases h; rw [ExprsForm]; exact ⟨rfl, rfl⟩
  | cons e l =>
    rw [Expr.serAll] at h
    obtain ⟨⟨x, w1⟩, hx, h⟩ := json_bind_ok.1 h
    obtain ⟨rfl, h1⟩ := expr_form E e x w1 hx
    obtain ⟨⟨y, w2⟩, hy, h⟩ := json_bind_ok.1 h
    obtain ⟨rfl, h2⟩ := exprs_form E l y w2 hy
    cases h
    rw [ExprsForm]
    exact ⟨rfl, x, y, h1, h2, rfl⟩
theorem maybe_form (E : Sers G B T) (l : List (Expr G B)) (b : Bytes) (w : WStore G B)
    (h : Expr.serOpt E l none = .ok (b, w)) : w = none ∧ MaybeForm E (TypeForm true) l b := by
  cases l with
  | nil => rw [Expr.serOpt] at h; cases h; rw [MaybeForm]; exact ⟨rfl, rfl⟩
  | cons e l =>
    rw [Expr.serOpt] at h
    obtain ⟨⟨x, w1⟩, hx, h⟩ := json_bind_ok.1 h
    obtain ⟨rfl, h1⟩ := expr_form E e x w1 hx
    cases h
    rw [MaybeForm]
    exact ⟨rfl, x, h1, rfl⟩
end

theorem tree_byte (h : TreeHeader) (hv : h.version.toNat < 8) :
    h.serialized = BitVec.ofNat 8 (treeByte h.version.toNat h.seg h.hasSize) := by
  obtain ⟨v, s, z⟩ := h
  have : ∀ v : Byte, v.toNat < 8 → ∀ s z : Bool, TreeHeader.serialized ⟨v, s, z⟩ = BitVec.ofNat 8 (treeByte v.toNat s z) := by
    decide +kernel
  exact this v hv s z

theorem tree_form (E : Sers G B T) (t : ETree G B) (b : Bytes) (h : t.ser E = .ok b)
    (hv : ∀ g C e, t = .parsed g C e → g.version.toNat < 8) : TreeForm E (TypeForm true) t b := by
  cases t with
  | unparsed x => rw [ETree.ser] at h; cases h; rfl
  | parsed g C e =>
    rw [ETree.ser] at h
    obtain ⟨body, hb, h⟩ := json_bind_ok.1 h
    rw [TreeForm]
    unfold ETree.serBody at hb
    obtain ⟨cs, x, hcs, hx, hbody⟩ : ∃ cs x, (if g.seg then ∃ y, Each (ConstForm E (TypeForm true)) C y ∧ C.length < 2 ^ 32 ∧
        cs = vlq C.length ++ y else cs = []) ∧ ExprForm E (TypeForm true) e x ∧ body = cs ++ x := by
      cases hs : g.seg with
      | true =>
        simp only [hs, if_true] at hb
        obtain ⟨cs, hc, hb⟩ := json_bind_ok.1 hb
        obtain ⟨n, hn, hc⟩ := json_bind_ok.1 hc
        obtain ⟨y, hy, hc⟩ := json_bind_ok.1 hc
        cases hc
        obtain ⟨⟨x, w⟩, hx, hb⟩ := json_bind_ok.1 hb
        cases hb
        obtain ⟨h1, rfl⟩ := cnt32_ok hn
        exact ⟨_, x, ⟨y, many_form (const_form E) _ _ hy, h1, rfl⟩, (expr_form E e x w hx).2, rfl⟩
      | false =>
        simp only [hs, Bool.false_eq_true, if_false] at hb
        obtain ⟨cs, hc, hb⟩ := json_bind_ok.1 hb
        cases hc
        obtain ⟨⟨x, w⟩, hx, hb⟩ := json_bind_ok.1 hb
        cases hb
        exact ⟨[], x, rfl, (expr_form E e x w hx).2, rfl⟩
    subst hbody
    rw [tree_byte g (hv g C e rfl)] at h
    cases hz : g.hasSize with
    | true =>
      simp only [hz, if_true] at h
      obtain ⟨n, hn, h⟩ := json_bind_ok.1 h
      cases h
      obtain ⟨h1, rfl⟩ := cnt32_ok hn
      exact ⟨cs, x, _, hcs, hx, ⟨h1, rfl⟩, by simp only [List.append_assoc]⟩
    | false =>
      simp only [hz, Bool.false_eq_true, if_false] at h
      cases h
      exact ⟨cs, x, [], hcs, hx, rfl, by simp⟩

end Verif.Wire
