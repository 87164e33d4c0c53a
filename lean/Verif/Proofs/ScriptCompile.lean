import Verif.Proofs.ScriptLower
import Verif.Proofs.SType

/-!
# The passes of the compiler after lowering
-/

set_option linter.unusedSimpArgs false
set_option linter.unusedVariables false

namespace Verif
namespace Script
open ScriptSpec
open Spec (NumTy)
variable {G B T : Type}

/-- The high-level expression stands for `x`. -/
def Rep : Ex → HExpr → Prop
  | .int s, h => ∃ sp, h = .lit (.int (BitVec.ofNat 32 (decimal s))) sp (some .int) ∧ decimal s < 2 ^ 31
  | .long s, h => ∃ sp, h = .lit (.long (BitVec.ofNat 64 (decimal (beforeL s)))) sp (some .long) ∧ decimal (beforeL s) < 2 ^ 63
  | .ident s, h => ∃ sp, h = .ident s sp none
  | .bin op l r, h => ∃ a b sp, h = .bin op a b sp none ∧ Rep l a ∧ Rep r b
  | .neg _, _ => False
  | .paren _, _ => False

theorem rep_of_bare (x : Ex) (h : HExpr) (hx : hirOf x = some h.bare) : Rep x h := by
  induction x generalizing h with
  | int s =>
    simp only [hirOf] at hx
    split at hx
    · rename_i hd
      cases h <;> simp [HExpr.bare] at hx
      obtain ⟨rfl, rfl⟩ := hx
      exact ⟨_, rfl, hd⟩
    · simp at hx
  | long s =>
    simp only [hirOf] at hx
    split at hx
    · rename_i hd
      cases h <;> simp [HExpr.bare] at hx
      obtain ⟨rfl, rfl⟩ := hx
      exact ⟨_, rfl, hd⟩
    · simp at hx
  | ident s =>
    cases h <;> simp [HExpr.bare, hirOf] at hx
    obtain ⟨rfl, rfl⟩ := hx
    exact ⟨_, rfl⟩
  | neg x ih => simp [hirOf] at hx
  | paren x ih => simp [hirOf] at hx
  | bin op l r ihl ihr =>
    rw [hirOf] at hx
    cases hl : hirOf l with
    | none => rw [hl] at hx; simp at hx
    | some a =>
      cases hr : hirOf r with
      | none => rw [hl, hr] at hx; simp at hx
      | some b =>
        rw [hl, hr] at hx
        cases h <;> simp [HExpr.bare] at hx
        obtain ⟨rfl, rfl, rfl, rfl⟩ := hx
        exact ⟨_, _, _, rfl, ihl _ hl, ihr _ hr⟩

theorem hirOf_plain (x : Ex) : (∃ h, hirOf x = some h) ↔ x.Plain := by
  induction x with
  | int s => simp only [hirOf, Ex.Plain]; split <;> simp_all
  | long s => simp only [hirOf, Ex.Plain]; split <;> simp_all
  | ident s => simp [hirOf, Ex.Plain]
  | neg x _ => simp [hirOf, Ex.Plain]
  | paren x _ => simp [hirOf, Ex.Plain]
  | bin op l r ihl ihr =>
    rw [Ex.Plain, ← ihl, ← ihr, hirOf]
    cases hirOf l <;> cases hirOf r <;> simp

/-! ## Names -/

/-- `HEIGHT` found at a name. -/
def bindLeaf : HExpr → HExpr
  | .ident s sp t => if s = heightName then .height sp (some .int) else .ident s sp t
  | e => e

/-- What the binder makes of an expression. -/
def bound : HExpr → HExpr
  | .bin op l r s t => .bin op (bindLeaf l) (bindLeaf r) s t
  | e => bindLeaf e

theorem bindName_new (h : HExpr) : ∃ o, bindName (ScriptEnv.new : ScriptEnv G B) h = .ok o ∧ o.getD h = bindLeaf h := by
  cases h with
  | ident s sp t =>
    by_cases hs : s = heightName
    · exact ⟨some (.height sp (some .int)), by simp [bindName, ScriptEnv.get, ScriptEnv.new, hs], by simp [bindLeaf, hs]⟩
    · exact ⟨none, by simp [bindName, ScriptEnv.get, ScriptEnv.new, hs], by simp [bindLeaf, hs]⟩
  | bin op l r s t => exact ⟨none, rfl, rfl⟩
  | height s t => exact ⟨none, rfl, rfl⟩
  | lit v s t => exact ⟨none, rfl, rfl⟩

theorem bindLeaf_idem (h : HExpr) : bindLeaf (bindLeaf h) = bindLeaf h := by
  cases h with
  | ident s sp t =>
    by_cases hs : s = heightName
    · simp [bindLeaf, hs]
    · simp [bindLeaf, hs]
  | bin op l r s t => rfl
  | height s t => rfl
  | lit v s t => rfl

theorem bindExpr_new (h : HExpr) : bindExpr (ScriptEnv.new : ScriptEnv G B) h = .ok (bound h) := by
  have leafCase : ∀ h : HExpr, (∀ op l r s t, h ≠ .bin op l r s t) →
      bindExpr (ScriptEnv.new : ScriptEnv G B) h = .ok (bindLeaf h) := by
    intro h hb
    obtain ⟨o, h1, h2⟩ := bindName_new (G := G) (B := B) h
    obtain ⟨o', h3, h4⟩ := bindName_new (G := G) (B := B) (bindLeaf h)
    rw [bindLeaf_idem] at h4
    rw [bindExpr, rewrite, h1, Comp.ok_bind, h2]
    have hb' : ∀ op l r s t, bindLeaf h ≠ .bin op l r s t := by
      intro op l r s t
      cases h with
      | ident n sp t' =>
        by_cases hs : n = heightName <;> simp [bindLeaf, hs]
      | bin op' l' r' s' t' => exact absurd rfl (hb _ _ _ _ _)
      | height s t => simp [bindLeaf]
      | lit v s t => simp [bindLeaf]
    generalize bindLeaf h = b at *
    cases b with
    | bin op l r s t => exact absurd rfl (hb' _ _ _ _ _)
    | ident n sp t =>
      simp only
      rw [h3, Comp.ok_bind, h4]; rfl
    | height s t =>
      simp only
      rw [h3, Comp.ok_bind, h4]; rfl
    | lit v s t =>
      simp only
      rw [h3, Comp.ok_bind, h4]; rfl
  cases h with
  | bin op l r s t =>
    obtain ⟨o, h1, h2⟩ := bindName_new (G := G) (B := B) l
    obtain ⟨o', h3, h4⟩ := bindName_new (G := G) (B := B) r
    rw [bindExpr, rewrite]
    show (bindName (ScriptEnv.new : ScriptEnv G B) l >>= fun l' => bindName (ScriptEnv.new : ScriptEnv G B) r >>= fun r' =>
      pure (HExpr.bin op (l'.getD l) (r'.getD r) s t)) = _
    rw [h1, Comp.ok_bind, h3, Comp.ok_bind, h2, h4]
    rfl
  | ident s sp t => exact leafCase _ (by simp)
  | height s t => exact leafCase _ (by simp)
  | lit v s t => exact leafCase _ (by simp)

/-! ## Types -/

/-- The types which inference assigns. -/
def typed : HExpr → HExpr
  | .bin op l r s _ => .bin op (typed l) (typed r) s (typed l).tpe
  | e => e

theorem typed_idem (h : HExpr) : typed (typed h) = typed h := by
  induction h with
  | bin op l r s t ihl ihr => simp only [typed, ihl, ihr]
  | _ => rfl

/-- Every operator is `+`. -/
def HExpr.sums : HExpr → Bool
  | .bin op l r _ _ => decide (op = .plus) && l.sums && r.sums
  | _ => true

theorem typed_sums (h : HExpr) : (typed h).sums = h.sums := by
  induction h with
  | bin op l r s t ihl ihr => simp only [typed, HExpr.sums, ihl, ihr]
  | _ => rfl

theorem typed_depth (h : HExpr) : (typed h).depth = h.depth := by
  induction h with
  | bin op l r s t ihl ihr => simp only [typed, HExpr.depth, ihl, ihr]
  | _ => rfl

/-- The calls of `assign_type` for both operands of an expression, and for an expression: operands are visited, and then the
operands of each operand once more. -/
def HExpr.calls : HExpr → Nat
  | .bin _ l r _ _ => 1 + l.calls + r.calls + inner l + inner r
  | _ => 1
where
  inner : HExpr → Nat
    | .bin _ l r _ _ => l.calls + r.calls
    | _ => 0

theorem typed_calls (h : HExpr) : (typed h).calls = h.calls ∧ HExpr.calls.inner (typed h) = HExpr.calls.inner h := by
  induction h with
  | bin op l r s t ihl ihr => simp only [typed, HExpr.calls, HExpr.calls.inner, ihl, ihr, and_self]
  | _ => exact ⟨rfl, rfl⟩

theorem Counted.bind_def {α β : Type} (m : Counted α) (f : α → Counted β) (c : Nat) :
    (m >>= f) c = (m c >>= fun p => f p.1 p.2) := rfl
theorem Counted.pure_def {α : Type} (a : α) (c : Nat) : (pure a : Counted α) c = .ok (a, c) := rfl

theorem infer_leaf (rec : HExpr → Counted HExpr) (h : HExpr) (hb : ∀ op l r s t, h ≠ .bin op l r s t) (c : Nat) :
    inferWith rec h c = .ok (none, c) := by
  cases h with
  | bin op l r s t => exact absurd rfl (hb _ _ _ _ _)
  | _ => rfl

theorem assignType_spec (n : Nat) : ∀ (h : HExpr) (c : Nat), h.depth ≤ n →
    (h.sums = true → assignType n h c = .ok (typed h, c + h.calls)) ∧ (h.sums = false → assignType n h c = .panic) := by
  induction n with
  | zero =>
    intro h c hn
    cases h <;> simp [HExpr.depth] at hn
  | succ n ih =>
    intro h c hn
    have leafCase : ∀ h : HExpr, (∀ op l r s t, h ≠ .bin op l r s t) → assignType (n + 1) h c = .ok (h, c + 1) := by
      intro h hb
      rw [assignType, rewrite]
      beta_reduce
      rw [Counted.bind_def, infer_leaf _ _ hb, Comp.ok_bind]
      simp only [Option.getD_none]
      cases h with
      | bin op l r s t => exact absurd rfl (hb _ _ _ _ _)
      | _ => rfl
    cases h with
    | ident s sp t => exact ⟨fun _ => leafCase _ (by simp), by simp [HExpr.sums]⟩
    | height s t => exact ⟨fun _ => leafCase _ (by simp), by simp [HExpr.sums]⟩
    | lit v s t => exact ⟨fun _ => leafCase _ (by simp), by simp [HExpr.sums]⟩
    | bin op l r s t =>
      simp only [HExpr.depth] at hn
      have hl := fun c => ih l c (by omega)
      have hr := fun c => ih r c (by omega)
      rw [assignType, rewrite]
      beta_reduce
      rw [Counted.bind_def]
      by_cases hop : op = .plus
      · subst hop
        have hf : inferWith (assignType n) (.bin .plus l r s t) (c + 1)
            = (assignType n l (c + 1) >>= fun p => assignType n r p.2 >>= fun q => .ok (some (.bin .plus p.1 q.1 s p.1.tpe), q.2)) := rfl
        rw [hf]
        -- the operands of an operand, once more
        have again : ∀ (a : HExpr) (c : Nat), a.depth ≤ n → a.sums = true →
            ∃ o, inferWith (assignType n) (typed a) c = .ok (o, c + HExpr.calls.inner a) ∧ o.getD (typed a) = typed a := by
          intro a c ha hs
          cases a with
          | ident s sp t => exact ⟨none, rfl, rfl⟩
          | height s t => exact ⟨none, rfl, rfl⟩
          | lit v s t => exact ⟨none, rfl, rfl⟩
          | bin op' a b s' t' =>
            simp only [HExpr.sums, Bool.and_eq_true, decide_eq_true_eq] at hs
            obtain ⟨⟨rfl, hsa⟩, hsb⟩ := hs
            simp only [HExpr.depth] at ha
            have h1 := (ih (typed a) c (by rw [typed_depth]; omega)).1 (by rw [typed_sums]; exact hsa)
            have h2 := (ih (typed b) (c + a.calls) (by rw [typed_depth]; omega)).1 (by rw [typed_sums]; exact hsb)
            rw [typed_idem, (typed_calls _).1] at h1 h2
            refine ⟨some (.bin .plus (typed a) (typed b) s' (typed a).tpe), ?_, rfl⟩
            show (assignType n (typed a) c >>= fun p => assignType n (typed b) p.2 >>= fun q =>
              Comp.ok (some (HExpr.bin .plus p.1 q.1 s' p.1.tpe), q.2)) = _
            rw [h1, Comp.ok_bind, h2, Comp.ok_bind]
            simp only [HExpr.calls.inner, Nat.add_assoc]
        constructor
        · intro hs
          simp only [HExpr.sums, Bool.and_eq_true, decide_eq_true_eq] at hs
          obtain ⟨⟨_, hsl⟩, hsr⟩ := hs
          rw [(hl (c + 1)).1 hsl, Comp.ok_bind, (hr _).1 hsr, Comp.ok_bind, Comp.ok_bind]
          simp only [Option.getD_some]
          obtain ⟨o1, e1, e2⟩ := again l (c + 1 + l.calls + r.calls) (by omega) hsl
          obtain ⟨o2, e3, e4⟩ := again r (c + 1 + l.calls + r.calls + HExpr.calls.inner l) (by omega) hsr
          rw [Counted.bind_def, e1, Comp.ok_bind]
          simp only
          rw [Counted.bind_def, e3, Comp.ok_bind]
          simp only [e2, e4, Counted.pure_def]
          simp only [typed, HExpr.calls]
          have : c + 1 + l.calls + r.calls + HExpr.calls.inner l + HExpr.calls.inner r
              = c + (1 + l.calls + r.calls + HExpr.calls.inner l + HExpr.calls.inner r) := by omega
          rw [this]
        · intro hs
          cases hsl : l.sums with
          | false => rw [(hl (c + 1)).2 hsl]; rfl
          | true =>
            rw [(hl (c + 1)).1 hsl, Comp.ok_bind]
            have hsr : r.sums = false := by simpa [HExpr.sums, hsl] using hs
            rw [(hr _).2 hsr]; rfl
      · have hf : inferWith (assignType n) (.bin op l r s t) (c + 1) = .panic := by
          cases op <;> first | exact absurd rfl hop | rfl
        rw [hf]
        exact ⟨by simp [HExpr.sums, hop], fun _ => rfl⟩

/-! ## Expressions of `ergotree-ir` -/

/-- The bound expression stands for `x`. -/
def RepB : Ex → HExpr → Prop
  | .int s, h => ∃ sp, h = .lit (.int (BitVec.ofNat 32 (decimal s))) sp (some .int) ∧ decimal s < 2 ^ 31
  | .long s, h => ∃ sp, h = .lit (.long (BitVec.ofNat 64 (decimal (beforeL s)))) sp (some .long) ∧ decimal (beforeL s) < 2 ^ 63
  | .ident s, h => ∃ sp, h = .ident s sp none ∨ s = HEIGHT ∧ h = .height sp (some .int)
  | .bin op l r, h => ∃ a b sp, h = .bin op a b sp none ∧ RepB l a ∧ RepB r b
  | .neg _, _ => False
  | .paren _, _ => False

theorem rep_repB {x : Ex} {h : HExpr} (hr : Rep x h) : RepB x h := by
  induction x generalizing h with
  | int s => exact hr
  | long s => exact hr
  | ident s => obtain ⟨sp, rfl⟩ := hr; exact ⟨sp, Or.inl rfl⟩
  | neg x _ => exact hr
  | paren x _ => exact hr
  | bin op l r ihl ihr =>
    obtain ⟨a, b, sp, rfl, h1, h2⟩ := hr
    exact ⟨a, b, sp, rfl, ihl h1, ihr h2⟩

theorem rep_bindLeaf {x : Ex} {h : HExpr} (hr : Rep x h) : RepB x (bindLeaf h) := by
  cases x with
  | ident s =>
    obtain ⟨sp, rfl⟩ := hr
    refine ⟨sp, ?_⟩
    by_cases hs : s = heightName
    · exact Or.inr ⟨hs, by simp [bindLeaf, hs]⟩
    · exact Or.inl (by simp [bindLeaf, hs])
  | int s => obtain ⟨sp, rfl, hd⟩ := hr; exact ⟨sp, rfl, hd⟩
  | long s => obtain ⟨sp, rfl, hd⟩ := hr; exact ⟨sp, rfl, hd⟩
  | neg x => exact hr
  | paren x => exact hr
  | bin op l r =>
    obtain ⟨a, b, sp, rfl, h1, h2⟩ := hr
    exact ⟨a, b, sp, rfl, rep_repB h1, rep_repB h2⟩

theorem rep_bound {x : Ex} {h : HExpr} (hr : Rep x h) : RepB x (bound h) := by
  cases x with
  | bin op l r =>
    obtain ⟨a, b, sp, rfl, h1, h2⟩ := hr
    exact ⟨_, _, sp, rfl, rep_bindLeaf h1, rep_bindLeaf h2⟩
  | ident s =>
    have := rep_bindLeaf hr
    obtain ⟨sp, rfl⟩ := hr
    exact this
  | int s => obtain ⟨sp, rfl, hd⟩ := hr; exact ⟨sp, rfl, hd⟩
  | long s => obtain ⟨sp, rfl, hd⟩ := hr; exact ⟨sp, rfl, hd⟩
  | neg x => exact hr
  | paren x => exact hr

/-- No names are left. -/
def HExpr.free : HExpr → Bool
  | .ident _ _ _ => false
  | .bin _ l r _ _ => l.free && r.free
  | _ => true

theorem rep_free {x : Ex} {h : HExpr} (hr : Rep x h) : h.free = true ↔ x.Nameless := by
  induction x generalizing h with
  | int s => obtain ⟨sp, rfl, hd⟩ := hr; simp [HExpr.free, Ex.Nameless]
  | long s => obtain ⟨sp, rfl, hd⟩ := hr; simp [HExpr.free, Ex.Nameless]
  | ident s => obtain ⟨sp, rfl⟩ := hr; simp [HExpr.free, Ex.Nameless]
  | neg x _ => exact hr.elim
  | paren x _ => exact hr.elim
  | bin op l r ihl ihr =>
    obtain ⟨a, b, sp, rfl, h1, h2⟩ := hr
    simp only [HExpr.free, Bool.and_eq_true, Ex.Nameless, ihl h1, ihr h2]

theorem bindLeaf_free {x : Ex} {h : HExpr} (hr : Rep x h) : (bindLeaf h).free = true ↔ x.Near := by
  cases x with
  | ident s =>
    obtain ⟨sp, rfl⟩ := hr
    by_cases hs : s = heightName
    · have : s = HEIGHT := hs
      subst this
      simp [bindLeaf, hs, HExpr.free, Ex.Near]
    · have hs' : s ≠ HEIGHT := hs
      simp [bindLeaf, hs, HExpr.free, Ex.Near, hs', Ex.Nameless]
  | int s => obtain ⟨sp, rfl, hd⟩ := hr; simp [bindLeaf, HExpr.free, Ex.Near, Ex.Nameless]
  | long s => obtain ⟨sp, rfl, hd⟩ := hr; simp [bindLeaf, HExpr.free, Ex.Near, Ex.Nameless]
  | neg x => exact hr.elim
  | paren x => exact hr.elim
  | bin op l r =>
    have h0 := rep_free hr
    obtain ⟨a, b, sp, rfl, h1, h2⟩ := hr
    simp only [bindLeaf, h0, Ex.Near, reduceCtorEq, false_or]

theorem bound_free {x : Ex} {h : HExpr} (hr : Rep x h) : (bound h).free = true ↔ x.Named := by
  cases x with
  | bin op l r =>
    obtain ⟨a, b, sp, rfl, h1, h2⟩ := hr
    simp only [bound, HExpr.free, Bool.and_eq_true, bindLeaf_free h1, bindLeaf_free h2, Ex.Named]
  | ident s =>
    have := bindLeaf_free hr
    obtain ⟨sp, rfl⟩ := hr
    exact this
  | int s =>
    have := bindLeaf_free hr
    obtain ⟨sp, rfl, hd⟩ := hr
    exact this
  | long s =>
    have := bindLeaf_free hr
    obtain ⟨sp, rfl, hd⟩ := hr
    exact this
  | neg x => exact hr.elim
  | paren x => exact hr.elim

theorem repB_sums {x : Ex} {h : HExpr} (hr : RepB x h) : h.sums = true ↔ x.Sums := by
  induction x generalizing h with
  | int s => obtain ⟨sp, rfl, hd⟩ := hr; simp [HExpr.sums, Ex.Sums]
  | long s => obtain ⟨sp, rfl, hd⟩ := hr; simp [HExpr.sums, Ex.Sums]
  | ident s => obtain ⟨sp, rfl | ⟨_, rfl⟩⟩ := hr <;> simp [HExpr.sums, Ex.Sums]
  | neg x _ => exact hr.elim
  | paren x _ => exact hr.elim
  | bin op l r ihl ihr =>
    obtain ⟨a, b, sp, rfl, h1, h2⟩ := hr
    simp only [HExpr.sums, Bool.and_eq_true, decide_eq_true_eq, Ex.Sums, ihl h1, ihr h2, and_assoc]

theorem bindLeaf_within {lo hi : Nat} {h : HExpr} (hw : h.Within lo hi) : (bindLeaf h).Within lo hi := by
  cases h with
  | ident s sp t =>
    by_cases hs : s = heightName
    · simp only [bindLeaf, hs, if_true]; exact hw
    · simp only [bindLeaf, hs, if_false]; exact hw
  | _ => exact hw

theorem bound_within {lo hi : Nat} {h : HExpr} (hw : h.Within lo hi) : (bound h).Within lo hi := by
  cases h with
  | bin op l r s t => exact ⟨hw.1, bindLeaf_within hw.2.1, bindLeaf_within hw.2.2⟩
  | ident s sp t => exact bindLeaf_within hw
  | height s t => exact hw
  | lit v s t => exact hw

theorem checkTpe_ok {h : HExpr} {m : Expr G B} {t : SType} (h1 : h.tpe = some t) (h2 : m.tpe = t) : checkTpe h m = .ok m := by
  rw [checkTpe, h1]
  simp only [h2, (SType.beq_iff t t).2 rfl, if_true]

theorem mir_spec (x : Ex) (h : HExpr) (hr : RepB x h) (hs : x.Sums) (lo hi : Nat) (hw : h.Within lo hi) :
    (h.free = true → ∃ e : Expr G B, mirLower (typed h) = .ok e ∧ x.target = some e ∧ e.tpe = x.headTy.stype ∧
      (typed h).tpe = some x.headTy.stype) ∧
    (h.free = false → ∃ s, (mirLower (typed h) : Comp (Expr G B)) = .err (.mir s) ∧ SpanIn lo hi s) := by
  induction x generalizing h with
  | int s =>
    obtain ⟨sp, rfl, hd⟩ := hr
    refine ⟨fun _ => ⟨_, rfl, ?_, rfl, rfl⟩, by simp [HExpr.free]⟩
    rw [Ex.target, if_pos hd]
  | long s =>
    obtain ⟨sp, rfl, hd⟩ := hr
    refine ⟨fun _ => ⟨_, rfl, ?_, rfl, rfl⟩, by simp [HExpr.free]⟩
    rw [Ex.target, if_pos hd]
  | ident s =>
    obtain ⟨sp, rfl | ⟨rfl, rfl⟩⟩ := hr
    · exact ⟨by simp [HExpr.free], fun _ => ⟨sp, rfl, hw⟩⟩
    · exact ⟨fun _ => ⟨_, rfl, rfl, rfl, rfl⟩, by simp [HExpr.free]⟩
  | neg x _ => exact hr.elim
  | paren x _ => exact hr.elim
  | bin op l r ihl ihr =>
    obtain ⟨a, b, sp, rfl, h1, h2⟩ := hr
    obtain ⟨rfl, hsl, hsr⟩ := hs
    obtain ⟨hw0, hwl, hwr⟩ := hw
    have il := ihl a h1 hsl hwl
    have ir := ihr b h2 hsr hwr
    have hm : (mirLower (typed (.bin .plus a b sp none)) : Comp (Expr G B))
        = (mirLower (typed a) >>= fun x => mirLower (typed b) >>= fun y =>
            checkTpe (.bin .plus (typed a) (typed b) sp (typed a).tpe) (.bin .plus x y)) := rfl
    rw [hm]
    cases hfa : a.free with
    | false =>
      obtain ⟨s, e1, e2⟩ := il.2 hfa
      rw [e1]
      exact ⟨by simp [HExpr.free, hfa], fun _ => ⟨s, rfl, e2⟩⟩
    | true =>
      obtain ⟨ea, e1, e2, e3, e4⟩ := il.1 hfa
      rw [e1, Comp.ok_bind]
      cases hfb : b.free with
      | false =>
        obtain ⟨s, f1, f2⟩ := ir.2 hfb
        rw [f1]
        exact ⟨by simp [HExpr.free, hfb], fun _ => ⟨s, rfl, f2⟩⟩
      | true =>
        obtain ⟨eb, f1, f2, f3, f4⟩ := ir.1 hfb
        rw [f1, Comp.ok_bind]
        refine ⟨fun _ => ⟨.bin .plus ea eb, ?_, ?_, ?_, e4⟩, by simp [HExpr.free, hfa, hfb]⟩
        · refine checkTpe_ok (t := l.headTy.stype) e4 ?_
          exact e3
        · rw [Ex.target, e2, f2]; rfl
        · exact e3

theorem stype_inj (t u : NumTy) : t.stype = u.stype ↔ t = u := by
  cases t <;> cases u <;> simp [NumTy.stype]

/-- The passes after lowering. -/
theorem compileFrom_spec (x : Ex) (h : HExpr) (hr : Rep x h) (lo hi : Nat) (hw : h.Within lo hi) :
    (¬ x.Sums → compileFrom (ScriptEnv.new : ScriptEnv G B) h = .panic) ∧
    (x.Sums → ¬ x.Named → ∃ s, compileFrom (ScriptEnv.new : ScriptEnv G B) h = .err (.mir s) ∧ SpanIn lo hi s) ∧
    (x.Sums → x.Named → ¬ x.Even → compileFrom (ScriptEnv.new : ScriptEnv G B) h = .err .typeCheck) ∧
    (x.Sums → x.Named → x.Even → ∃ e, compileFrom (ScriptEnv.new : ScriptEnv G B) h = .ok e ∧ x.target = some e) := by
  have hb := rep_bound hr
  have hsum := repB_sums hb
  have hfree := bound_free hr
  have hspec := assignType_spec (bound h).depth (bound h) 0 (Nat.le_refl _)
  have hwb := bound_within hw
  have hcf : compileFrom (ScriptEnv.new : ScriptEnv G B) h
      = (assignType (bound h).depth (bound h) 0 >>= fun p => mirLower p.1 >>= fun m => typeCheck m) := by
    rw [compileFrom, bindExpr_new, Comp.ok_bind]
  rw [hcf]
  refine ⟨?_, ?_⟩
  · intro hs
    rw [hspec.2 (by
      cases h' : (bound h).sums with
      | false => rfl
      | true => exact absurd (hsum.1 h') hs)]
    rfl
  · by_cases hs : x.Sums
    swap
    · exact ⟨fun h => absurd h hs, fun h => absurd h hs, fun h => absurd h hs⟩
    rw [hspec.1 (hsum.2 hs), Comp.ok_bind]
    have hmir := mir_spec (G := G) (B := B) x (bound h) hb hs lo hi hwb
    refine ⟨?_, ?_⟩
    · intro _ hn
      obtain ⟨s, e1, e2⟩ := hmir.2 (by
        cases h' : (bound h).free with
        | false => rfl
        | true => exact absurd (hfree.1 h') hn)
      rw [e1]
      exact ⟨s, rfl, e2⟩
    · by_cases hn : x.Named
      swap
      · exact ⟨fun _ h => absurd h hn, fun _ h => absurd h hn⟩
      obtain ⟨e, e1, e2, e3, _⟩ := hmir.1 (hfree.2 hn)
      rw [e1, Comp.ok_bind]
      -- the types of the operands
      cases x with
      | bin op l r =>
        obtain ⟨a, b, sp, hbe, h1, h2⟩ := hb
        rw [hbe] at hwb hfree
        obtain ⟨rfl, hsl, hsr⟩ := hs
        have hfr := hfree.2 hn
        simp only [HExpr.free, Bool.and_eq_true] at hfr
        obtain ⟨ea, a1, a2, a3, _⟩ := (mir_spec (G := G) (B := B) l a h1 hsl lo hi hwb.2.1).1 hfr.1
        obtain ⟨eb, b1, b2, b3, _⟩ := (mir_spec (G := G) (B := B) r b h2 hsr lo hi hwb.2.2).1 hfr.2
        have he : e = .bin .plus ea eb := by
          rw [Ex.target, a2, b2] at e2
          exact (Option.some.inj e2).symm
        subst he
        have htc : typeCheck (Expr.bin .plus ea eb : Expr G B)
            = if ea.tpe.beq eb.tpe then .ok (.bin .plus ea eb) else .err .typeCheck := rfl
        rw [htc, a3, b3]
        have hev : (Ex.bin .plus l r).Even ↔ SType.beq l.headTy.stype r.headTy.stype = true := by
          rw [SType.beq_iff, stype_inj]; exact Iff.rfl
        refine ⟨fun _ _ hne => ?_, fun _ _ hye => ⟨_, ?_, e2⟩⟩
        · rw [if_neg (fun h => hne (hev.2 h))]
        · rw [if_pos (hev.1 hye)]
      | int s =>
        obtain ⟨sp, hbe, hd⟩ := hb
        rw [Ex.target, if_pos hd] at e2
        cases e2
        exact ⟨fun _ _ h => absurd trivial h, fun _ _ _ => ⟨_, rfl, by rw [Ex.target, if_pos hd]⟩⟩
      | long s =>
        obtain ⟨sp, hbe, hd⟩ := hb
        rw [Ex.target, if_pos hd] at e2
        cases e2
        exact ⟨fun _ _ h => absurd trivial h, fun _ _ _ => ⟨_, rfl, by rw [Ex.target, if_pos hd]⟩⟩
      | ident s =>
        have hs' : s = HEIGHT := by
          rcases hn with hn | hn
          · cases hn; rfl
          · exact hn.elim
        subst hs'
        cases e2
        exact ⟨fun _ _ h => absurd trivial h, fun _ _ _ => ⟨_, rfl, rfl⟩⟩
      | neg x => exact hb.elim
      | paren x => exact hb.elim

end Script
end Verif
