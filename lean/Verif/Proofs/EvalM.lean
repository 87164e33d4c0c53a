import Verif.Model.Eval

set_option linter.unusedSimpArgs false
set_option linter.unusedVariables false

/-! # Laws of the evaluation monad -/

namespace Verif
variable {G B α β : Type}

namespace Res

@[simp] theorem bind_ok (a : α) (f : α → Res β) : (Res.ok a >>= f) = f a := rfl
@[simp] theorem bind_err (e : EvalErr) (f : α → Res β) : (Res.err e >>= f) = .err e := rfl
@[simp] theorem bind_panic (f : α → Res β) : (Res.panic >>= f) = .panic := rfl
@[simp] theorem bind_out (f : α → Res β) : (Res.out >>= f) = .out := rfl
@[simp] theorem pure_eq (a : α) : (pure a : Res α) = .ok a := rfl

theorem bind_eq_ok {m : Res α} {f : α → Res β} {b : β} : (m >>= f) = .ok b ↔ ∃ a, m = .ok a ∧ f a = .ok b := by
  cases m <;> simp

theorem ofOption_eq_ok {e : EvalErr} {o : Option α} {a : α} : Res.ofOption e o = .ok a ↔ o = some a := by
  cases o <;> simp [Res.ofOption]

theorem ofOutcome_eq_ok {e : EvalErr} {o : Outcome α} {a : α} : Res.ofOutcome e o = .ok a ↔ o = .ok a := by
  cases o <;> simp [Res.ofOutcome]

theorem mapAll_eq_ok {f : α → Res β} : ∀ {l : List α} {r : List β},
    Res.mapAll f l = .ok r ↔ List.Forall₂ (fun a b => f a = .ok b) l r
  | [], r => by
    constructor
    · intro h; cases h; exact .nil
    · intro h; cases h; rfl
  | a :: l, r => by
    rw [Res.mapAll]
    constructor
    · intro h
      obtain ⟨b, hb, h⟩ := bind_eq_ok.1 h
      obtain ⟨bs, hbs, h⟩ := bind_eq_ok.1 h
      cases h
      exact .cons hb (mapAll_eq_ok.1 hbs)
    · intro h
      cases h with
      | cons hb hbs => rw [hb, bind_ok, mapAll_eq_ok.2 hbs]; rfl

end Res

namespace EvalM

@[simp] theorem pure_run (a : α) (s : EvalSt G B) : (pure a : EvalM G B α) s = .ok (a, s) := rfl
@[simp] theorem fail_run (e : EvalErr) (s : EvalSt G B) : (fail e : EvalM G B α) s = .err e := rfl
@[simp] theorem lift_ok_run (a : α) (s : EvalSt G B) : (lift (.ok a) : EvalM G B α) s = .ok (a, s) := rfl
@[simp] theorem lift_err_run (e : EvalErr) (s : EvalSt G B) : (lift (.err e) : EvalM G B α) s = .err e := rfl
@[simp] theorem lift_panic_run (s : EvalSt G B) : (lift .panic : EvalM G B α) s = .panic := rfl
@[simp] theorem lift_out_run (s : EvalSt G B) : (lift .out : EvalM G B α) s = .out := rfl

theorem bind_run (m : EvalM G B α) (f : α → EvalM G B β) (s : EvalSt G B) :
    (m >>= f) s = m s >>= fun p => f p.1 p.2 := by
  show (match m s with | .ok (a, s') => f a s' | .err e => .err e | .panic => .panic | .out => .out) = _
  cases h : m s <;> rfl

theorem bind_ok {m : EvalM G B α} {f : α → EvalM G B β} {s s' : EvalSt G B} {a : α} (h : m s = .ok (a, s')) :
    (m >>= f) s = f a s' := by rw [bind_run, h]; rfl

theorem bind_err {m : EvalM G B α} {f : α → EvalM G B β} {s : EvalSt G B} {e : EvalErr} (h : m s = .err e) :
    (m >>= f) s = .err e := by rw [bind_run, h]; rfl

theorem bind_panic {m : EvalM G B α} {f : α → EvalM G B β} {s : EvalSt G B} (h : m s = .panic) :
    (m >>= f) s = .panic := by rw [bind_run, h]; rfl

theorem bind_out {m : EvalM G B α} {f : α → EvalM G B β} {s : EvalSt G B} (h : m s = .out) :
    (m >>= f) s = .out := by rw [bind_run, h]; rfl

theorem bind_eq_ok {m : EvalM G B α} {f : α → EvalM G B β} {s : EvalSt G B} {r : β × EvalSt G B} :
    (m >>= f) s = .ok r ↔ ∃ a s', m s = .ok (a, s') ∧ f a s' = .ok r := by
  rw [bind_run, Res.bind_eq_ok]
  exact ⟨fun ⟨⟨a, s'⟩, h1, h2⟩ => ⟨a, s', h1, h2⟩, fun ⟨a, s', h1, h2⟩ => ⟨(a, s'), h1, h2⟩⟩

theorem lift_eq_ok {r : Res α} {s : EvalSt G B} {a : α} {s' : EvalSt G B} :
    (lift r : EvalM G B α) s = .ok (a, s') ↔ r = .ok a ∧ s' = s := by
  cases r <;> simp [lift]
  exact fun _ => eq_comm

theorem pure_bind (a : α) (f : α → EvalM G B β) : (pure a >>= f : EvalM G B β) = f a := rfl

theorem addCost_none (s : EvalSt G B) : (addCost none : EvalM G B Unit) s = .ok ((), { s with cost := s.cost + 1 }) := rfl

end EvalM

theorem eval_succ {T : Type} [DecidableEq G] [DecidableEq B] [DecidableEq (Value G B)] (W : World G B T) (C : EvalCtx G B) (n : Nat)
    (e : Expr G B) : eval W C (n + 1) e = addCost C.limit >>= fun _ => step W C (eval W C n) e := rfl

theorem eval_succ_run {T : Type} [DecidableEq G] [DecidableEq B] [DecidableEq (Value G B)] (W : World G B T) (C : EvalCtx G B)
    (n : Nat) (e : Expr G B) (s : EvalSt G B) (h : C.limit = none) :
    eval W C (n + 1) e s = step W C (eval W C n) e { s with cost := s.cost + 1 } := by
  rw [eval_succ, h]; rfl

/-- The nodes that do not evaluate all operands first. -/
def SOp.special : SOp → Bool
  | .ifOp | .map | .filter | .anyOf | .forAll | .fold | .treeLookup | .createProveDhTuple => true
  | _ => false

theorem evalOp_strict {T : Type} [DecidableEq G] (W : World G B T) (C : EvalCtx G B) (ev : Ev G B) (o : SOp)
    (ho : o.special = false) (args : List (Expr G B)) :
    evalOp W C ev o args = evalAll ev args >>= fun vs => EvalM.lift (Value.strictOp W C o vs) := by
  unfold evalOp
  split <;> first | rfl | (exfalso; simp [SOp.special] at ho)

end Verif
