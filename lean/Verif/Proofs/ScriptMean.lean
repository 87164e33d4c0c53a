import Verif.Proofs.ScriptCompile
import Verif.Props.Arith
import Verif.Props.ErgoTree
import Verif.Props.Printer

/-!
# What compiled sums are worth
-/

set_option linter.unusedSimpArgs false
set_option linter.unusedVariables false

namespace Verif
namespace Script
open ScriptSpec
open Spec (NumTy IsNum numTy)
variable {G B T : Type} [DecidableEq G] [DecidableEq B] [DecidableEq (Value G B)]

theorem ofNat_toInt (w d : Nat) (hw : 0 < w) (h : d < 2 ^ (w - 1)) : (BitVec.ofNat w d).toInt = d := by
  have h2 : 2 ^ w = 2 * 2 ^ (w - 1) := by
    have : w = (w - 1) + 1 := by omega
    conv => lhs; rw [this]
    rw [Nat.pow_succ]; omega
  have h3 : d < 2 ^ w := by omega
  rw [BitVec.toInt_eq_toNat_cond, BitVec.toNat_ofNat, Nat.mod_eq_of_lt h3, if_pos (by omega)]

/-- The depth of an expression. -/
def exDepth : Ex → Nat
  | .bin _ l r => max (exDepth l) (exDepth r) + 1
  | _ => 1

theorem eval_plus (W : World G B T) (C : EvalCtx G B) (hC : C.limit = none) (n : Nat) (l r : Expr G B) (s : EvalSt G B) :
    (∀ er, eval W C n l { s with cost := s.cost + 1 + 1 } = .err er → eval W C (n + 1) (.bin .plus l r) s = .err er) ∧
    (∀ lv s' t a, eval W C n l { s with cost := s.cost + 1 + 1 } = .ok (lv, s') → IsNum lv t a →
      (∀ er, eval W C n r s' = .err er → eval W C (n + 1) (.bin .plus l r) s = .err er) ∧
      (∀ rv s'', eval W C n r s' = .ok (rv, s'') →
        eval W C (n + 1) (.bin .plus l r) s = (EvalM.lift (lv.binNum .plus rv) : EvalM G B (Value G B)) s'')) := by
  have e0 : eval W C (n + 1) (.bin .plus l r) s = evalBin C (eval W C n) .plus l r { s with cost := s.cost + 1 } := by
    rw [eval_succ_run W C n _ s hC]; rfl
  have e1 : evalBin C (eval W C n) .plus l r { s with cost := s.cost + 1 }
      = (eval W C n l >>= fun lv => (match lv.leftNum .plus with
        | some f => evalAs (eval W C n) f r
        | none => EvalM.fail .unexpectedValue)) { s with cost := s.cost + 1 + 1 } := by
    unfold evalBin
    rw [hC, EvalM.bind_ok (EvalM.addCost_none _)]
    rfl
  rw [e0, e1]
  refine ⟨fun er h => EvalM.bind_err h, ?_⟩
  intro lv s' t a hl hn
  rw [EvalM.bind_ok hl]
  unfold Value.binNum
  obtain ⟨α, o, P, val, x, X, hx, _, hf⟩ := leftNum_cases hn
  rw [hf]
  refine ⟨fun er h => ?_, fun rv s'' h => ?_⟩
  · show (eval W C n r >>= _) s' = _
    exact EvalM.bind_err h
  · show (eval W C n r >>= _) s' = _
    rw [EvalM.bind_ok h]

theorem mean (W : World G B T) (C : EvalCtx G B) (hC : C.limit = none) (x : Ex) (e : Expr G B) (hx : x.target = some e) (n : Nat)
    (hn : exDepth x ≤ n) (s : EvalSt G B) :
    match x.worth C.height.toInt with
    | some (t, a) => ∃ v s', eval W C n e s = .ok (v, s') ∧ IsNum v t a
    | none => ∃ er, eval W C n e s = .err er := by
  induction x generalizing e n s with
  | int tx =>
    rw [Ex.target] at hx
    split at hx
    · rename_i hd
      cases hx
      rw [Ex.worth, if_pos hd]
      cases n with
      | zero => simp [exDepth] at hn
      | succ n =>
        refine ⟨_, _, by rw [eval_succ_run W C n _ s hC]; rfl, ?_⟩
        have h1 := IsNum.int (G := G) (B := B) (BitVec.ofNat 32 (decimal tx))
        rw [ofNat_toInt 32 _ (by omega) hd] at h1
        exact h1
    · simp at hx
  | long tx =>
    rw [Ex.target] at hx
    split at hx
    · rename_i hd
      cases hx
      rw [Ex.worth, if_pos hd]
      cases n with
      | zero => simp [exDepth] at hn
      | succ n =>
        refine ⟨_, _, by rw [eval_succ_run W C n _ s hC]; rfl, ?_⟩
        have h1 := IsNum.long (G := G) (B := B) (BitVec.ofNat 64 (decimal (beforeL tx)))
        rw [ofNat_toInt 64 _ (by omega) hd] at h1
        exact h1
    · simp at hx
  | ident tx =>
    rw [Ex.target] at hx
    split at hx
    · rename_i hd
      cases hx
      rw [Ex.worth, if_pos hd]
      cases n with
      | zero => simp [exDepth] at hn
      | succ n =>
        refine ⟨_, _, by rw [eval_succ_run W C n _ s hC]; rfl, .int C.height⟩
    · simp at hx
  | neg x _ => simp [Ex.target] at hx
  | paren x _ => simp [Ex.target] at hx
  | bin op l r ihl ihr =>
    cases op with
    | plus =>
      cases hl : (l.target : Option (Expr G B)) with
      | none => rw [Ex.target, hl] at hx; simp at hx
      | some el =>
        cases hr : (r.target : Option (Expr G B)) with
        | none => rw [Ex.target, hl, hr] at hx; simp at hx
        | some er =>
          rw [Ex.target, hl, hr] at hx
          cases hx
          simp only [exDepth] at hn
          cases n with
          | zero => omega
          | succ n =>
            have il := fun s => ihl el hl n (by omega) s
            have ir := fun s => ihr er hr n (by omega) s
            have hp := eval_plus W C hC n el er s
            rw [Ex.worth]
            cases hwl : l.worth C.height.toInt with
            | none =>
              rw [hwl] at il
              obtain ⟨ee, h1⟩ := il { s with cost := s.cost + 1 + 1 }
              exact ⟨ee, hp.1 ee h1⟩
            | some p =>
              obtain ⟨t, a⟩ := p
              rw [hwl] at il
              obtain ⟨lv, s', h1, h2⟩ := il { s with cost := s.cost + 1 + 1 }
              have hp2 := hp.2 lv s' t a h1 h2
              cases hwr : r.worth C.height.toInt with
              | none =>
                rw [hwr] at ir
                obtain ⟨ee, h3⟩ := ir s'
                exact ⟨ee, hp2.1 ee h3⟩
              | some q =>
                obtain ⟨u, b⟩ := q
                rw [hwr] at ir
                obtain ⟨rv, s'', h3, h4⟩ := ir s'
                have he := hp2.2 rv s'' h3
                show match (if t = u ∧ -2 ^ (t.bits - 1) ≤ a + b ∧ a + b < 2 ^ (t.bits - 1) then some (t, a + b) else none) with
                  | some (t, a) => ∃ v s', eval W C (n + 1) (Expr.bin .plus el er) s = .ok (v, s') ∧ IsNum v t a
                  | none => ∃ er', eval W C (n + 1) (Expr.bin .plus el er) s = .err er'
                by_cases htu : t = u
                · subst htu
                  have hx := C35_arith_exact .plus rfl t lv rv a b h2 h4
                  by_cases hf : -2 ^ (t.bits - 1) ≤ a + b ∧ a + b < 2 ^ (t.bits - 1)
                  · rw [if_pos ⟨rfl, hf⟩]
                    obtain ⟨v, hv, hv'⟩ := hx.1 hf
                    rw [hv] at he
                    exact ⟨v, s'', he, hv'⟩
                  · rw [if_neg (fun h => hf h.2)]
                    rw [hx.2 hf] at he
                    exact ⟨_, he⟩
                · rw [if_neg (fun h => htu h.1)]
                  have e1 : numTy lv = some t := by cases h2 <;> rfl
                  have e2 : numTy rv = some u := by cases h4 <;> rfl
                  rw [(C35_mixed_refused .plus lv rv).1 t e1 (by rw [e2]; intro h; exact htu (Option.some.inj h).symm)] at he
                  exact ⟨_, he⟩
    | minus => simp [Ex.target] at hx
    | multiply => simp [Ex.target] at hx
    | divide => simp [Ex.target] at hx

omit [DecidableEq G] [DecidableEq B] [DecidableEq (Value G B)] in
/-- What compiled expressions look like. -/
theorem target_shape (x : Ex) (e : Expr G B) (hx : x.target = some e) (utf8 : Bytes → Bool) (bwf : B → Prop) (R : Expr.Reader G B)
    (st : Expr.TStore) :
    Spec.NoPh e ∧ Spec.Good utf8 bwf R e st ∧ Spec.after e st = st ∧ Spec.isBools e = false ∧ Spec.collapse e = e ∧
      (e.tpe = .int ∨ e.tpe = .long) ∧ (∀ c, e = .const c → c.tpe ≠ .sigmaProp) := by
  induction x generalizing e with
  | int tx =>
    rw [Ex.target] at hx
    split at hx
    · cases hx
      refine ⟨trivial, ⟨?_, ?_, ?_⟩, rfl, rfl, rfl, .inl rfl, ?_⟩
      · trivial
      · trivial
      · trivial
      · intro c hc; cases hc; simp
    · simp at hx
  | long tx =>
    rw [Ex.target] at hx
    split at hx
    · cases hx
      refine ⟨trivial, ⟨?_, ?_, ?_⟩, rfl, rfl, rfl, .inr rfl, ?_⟩
      · trivial
      · trivial
      · trivial
      · intro c hc; cases hc; simp
    · simp at hx
  | ident tx =>
    rw [Ex.target] at hx
    split at hx
    · cases hx
      exact ⟨trivial, ⟨rfl, rfl, trivial⟩, rfl, rfl, rfl, .inl rfl, fun c hc => by cases hc⟩
    · simp at hx
  | neg x _ => simp [Ex.target] at hx
  | paren x _ => simp [Ex.target] at hx
  | bin op l r ihl ihr =>
    cases op with
    | plus =>
      cases hl : (l.target : Option (Expr G B)) with
      | none => rw [Ex.target, hl] at hx; simp at hx
      | some el =>
        cases hr : (r.target : Option (Expr G B)) with
        | none => rw [Ex.target, hl, hr] at hx; simp at hx
        | some er =>
          rw [Ex.target, hl, hr] at hx
          cases hx
          obtain ⟨a1, a2, a3, a4, a5, a6, _⟩ := ihl el hl
          obtain ⟨b1, b2, b3, b4, b5, b6, _⟩ := ihr er hr
          refine ⟨⟨a1, b1⟩, ⟨a4, a2, by rw [a3]; exact b2⟩, ?_, rfl, ?_, a6, fun c hc => by cases hc⟩
          · show Spec.after er (Spec.after el st) = st
            rw [a3, b3]
          · show Expr.bin _ (Spec.collapse el) (Spec.collapse er) = _
            rw [a5, b5]
    | minus => simp [Ex.target] at hx
    | multiply => simp [Ex.target] at hx
    | divide => simp [Ex.target] at hx

/-- The outcome of evaluation, with whatever budget. -/
theorem mean_any (W : World G B T) (C : EvalCtx G B) (hC : C.limit = none) (x : Ex) (e : Expr G B) (hx : x.target = some e) (n : Nat)
    (s : EvalSt G B) :
    eval W C n e s = .out ∨ (∃ er, eval W C n e s = .err er) ∨ ∃ v s' t a, eval W C n e s = .ok (v, s') ∧ IsNum v t a := by
  by_cases ho : eval W C n e s = .out
  · exact .inl ho
  · have h1 := eval_mono W C n (exDepth x) e s ho
    have h2 := mean W C hC x e hx (n + exDepth x) (by omega) s
    rw [h1] at h2
    cases hw : x.worth C.height.toInt with
    | none => rw [hw] at h2; exact .inr (.inl h2)
    | some p =>
      rw [hw] at h2
      obtain ⟨v, s', h3, h4⟩ := h2
      exact .inr (.inr ⟨v, s', _, _, h3, h4⟩)

theorem once_none (W : World G B T) (C : EvalCtx G B) (x : Ex) (e : Expr G B) (hx : x.target = some e) (n : Nat)
    (env : FMap (BitVec 32) (Value G B)) : ∀ p, reduceOnce W C n e env ≠ .ok (some p) := by
  intro p h
  unfold reduceOnce at h
  rcases mean_any W { C with limit := none } rfl x e hx n { env := env, cost := 0 } with h1 | ⟨er, h1⟩ | ⟨v, s', t, a, h1, h2⟩
  · rw [h1] at h; cases h
  · rw [h1] at h; cases h
  · rw [h1] at h
    cases h2 <;> cases h

/-- No proposition comes out of a compiled expression. -/
theorem reduce_none (W : World G B T) (C : EvalCtx G B) (x : Ex) (e : Expr G B) (hx : x.target = some e) (n : Nat)
    (env : FMap (BitVec 32) (Value G B)) : ∀ p, reduceToCrypto W C n e env ≠ .ok p := by
  have h1 := once_none W C x e hx n env
  have again : ∀ p, reduceAgain W C n e env ≠ .ok p := by
    intro p h
    unfold reduceAgain at h
    split at h
    · rename_i e' he'
      have := (C66_rebuilt W.mode e e' he').1
      rw [(target_shape x e hx (fun _ => true) (fun _ => True) ⟨[], false, fun _ _ => none⟩ []).2.2.2.2.1] at this
      subst this
      split at h
      · rename_i q hq; exact h1 q hq
      all_goals cases h
    · cases h
    · cases h
  intro p h
  unfold reduceToCrypto at h
  split at h
  · rename_i hq; exact h1 _ hq
  · rename_i q _ hq; exact h1 _ hq
  · exact again p h
  · exact again p h
  · cases h
  · cases h

end Script
end Verif
