import Verif.Proofs.Denotation
import Verif.Props.Typing

set_option linter.unusedSimpArgs false
set_option linter.unusedVariables false

/-!
# C69: the interpreter computes the meaning of scripts

`meaning W C K e` (`Spec/Denotation.lean`): the meaning of the script `e`, computed from the meanings of its parts, without variables
that change, a stack or costs; `K` bounds the levels of code from outside that runs code from outside.
-/

namespace Verif
open Spec
variable {G B T : Type} [DecidableEq G] [DecidableEq B] [DecidableEq (Value G B)] (W : World G B T) (C : EvalCtx G B)

/-- C69 (partial): evaluating a script that follows the typing rules, in which functions are not data, gives the value or error that is
its meaning.  What is missing: scripts that compute functions, for which see the violations. -/
theorem C69_agrees_partial {D : Decls B} (hW : Honours D W C) (hC : C.limit = none) (hFC : FirstOrderCode D W C) (n K : Nat)
    (e : Expr G B) (c : Nat) (hT : Typed D [] e) (hF : FirstOrder e) (ht : isFuncTy e.tpe = false) (hK : n < K) :
    match eval W C n e { env := [], cost := c } with
    | .ok (v, _) => meaning W C K e = .ok (.val v)
    | .err x => meaning W C K e = .err x
    | .panic => meaning W C K e = .panic
    | .out => True := by
  obtain ⟨K, rfl⟩ : ∃ k, K = k + 1 := ⟨K - 1, by omega⟩
  have h := agree (W := W) (C := C) hW hC hFC n K (by omega) [] [] e hT hF { env := [], cost := c }
    ⟨⟨EnvOk.nil, fun id w hw => by cases hw⟩, .nil⟩
  show match eval W C n e { env := [], cost := c } with
    | .ok (v, _) => den W C (meaning W C K) [] e = .ok (.val v)
    | .err x => den W C (meaning W C K) [] e = .err x
    | .panic => den W C (meaning W C K) [] e = .panic
    | .out => True
  cases hm : eval W C n e { env := [], cost := c } with
  | ok p =>
    obtain ⟨v, s1⟩ := p
    rw [hm] at h
    obtain ⟨⟨d, h1, h2⟩, _⟩ := h
    unfold RelD at h2
    rw [ht] at h2
    have h2 : d = .val v := h2
    subst h2
    exact h1
  | err x => rw [hm] at h; exact h
  | panic => rw [hm] at h; exact h
  | out => trivial

/-- The outcome of an evaluation, without the state. -/
def outcome {α : Type} (r : Res (α × EvalSt G B)) : Res α := r >>= fun p => .ok p.1

/-- C69 (partial): with a stack as deep as the script has nodes (C68) the interpreter always ends with the meaning of the script.  What
is missing: as above. -/
theorem C69_total_partial {D : Decls B} {b : Nat} (hW : Honours D W C) (hC : C.limit = none) (hFC : FirstOrderCode D W C)
    (hS : SmallCode D W C b) (n K : Nat) (e : Expr G B) (c : Nat) (hT : Typed D [] e) (hF : FirstOrder e) (ht : isFuncTy e.tpe = false)
    (hn : weight b e ≤ n) (hK : weight b e < K) : outcome (eval W C n e { env := [], cost := c }) = value (meaning W C K e) := by
  obtain ⟨k, rfl⟩ := Nat.le.dest hn
  have h0 := C68_depth W C hW hS (weight b e) e c hT (Nat.le_refl _)
  rw [eval_mono W C _ k e _ h0]
  have h := C69_agrees_partial W C hW hC hFC (weight b e) K e c hT hF ht hK
  revert h0 h
  cases eval W C (weight b e) e { env := [], cost := c } with
  | ok p => intro _ h; rw [h]; rfl
  | err x => intro _ h; rw [h]; rfl
  | panic => intro _ h; rw [h]; rfl
  | out => intro h0; exact absurd rfl h0

/-- The proposition to prove that a script means. -/
def proposition (r : Res (Value G B)) : Res (SigmaBoolean G) :=
  r >>= fun v => match v with
    | .bool b => .ok (.trivial b)
    | .sigmaProp p => .ok p
    | _ => .panic

/-- C69 (partial): so `reduce_to_crypto` gives the proposition that is the meaning of the script.  What is missing: as above; scripts
that the printer fails on (C66). -/
theorem C69_reduce_partial {D : Decls B} {b : Nat} (hW : Honours D W C) (hFC : FirstOrderCode D W { C with limit := none })
    (hS : SmallCode D W C b) (n K : Nat) (e e' : Expr G B) (hT : Typed D [] e) (hF : FirstOrder e) (ht : isFuncTy e.tpe = false)
    (hp : e.prettyPrint W.mode = .ok e') (hf : Shown PlainBody e) (hn : weight b e ≤ n) (hK : weight b e < K) :
    reduceToCrypto W C n e [] = proposition (value (meaning W { C with limit := none } K e)) := by
  have hW' : Honours D W { C with limit := none } :=
    ⟨hW.selfBox, hW.inputs, hW.outputs, hW.dataInputs, hW.reg, hW.var, hW.codeVar, hW.codeReg⟩
  have h2 := C69_total_partial W { C with limit := none } hW' rfl hFC hS n K e 0 hT hF ht hn hK
  rw [C66_one_evaluation_partial W C n e e' [] hp hf, ← h2]
  cases eval W { C with limit := none } n e { env := [], cost := 0 } with
  | ok p =>
    obtain ⟨v, s⟩ := p
    cases v <;> rfl
  | err r => rfl
  | panic => rfl
  | out => rfl

/-- The script runs no code from outside. -/
def NoCode (e : Expr G B) : Prop := Everywhere (fun e => (∀ t id, e ≠ .deserCtx t id) ∧ ∀ r t d, e ≠ .deserReg r t d) e

theorem dens_congr {c1 c2 : Expr G B → Res (Den G B)} {l : List (Expr G B)}
    (h : ∀ e ∈ l, ∀ ρ, den W C c1 ρ e = den W C c2 ρ e) (ρ : DEnv G B) : dens W C c1 ρ l = dens W C c2 ρ l := by
  induction l with
  | nil => unfold dens; rfl
  | cons e l ih =>
    unfold dens
    rw [h e (by simp), ih fun e he => h e (by simp [he])]

theorem defs_congr {c1 c2 : Expr G B → Res (Den G B)} {l : List (Expr G B)}
    (h : ∀ e ∈ l, ∀ c ∈ children e, ∀ ρ, den W C c1 ρ c = den W C c2 ρ c) (ρ : DEnv G B) : defs W C c1 ρ l = defs W C c2 ρ l := by
  induction l generalizing ρ with
  | nil => unfold defs; rfl
  | cons e l ih =>
    have ih := ih fun e he => h e (by simp [he])
    have h0 := h e (by simp)
    cases e with
    | valDef id rhs =>
      unfold defs
      rw [h0 rhs (by simp [children])]
      congr 1
      funext d
      exact ih _
    | _ => unfold defs; rfl

theorem den_congr (c1 c2 : Expr G B → Res (Den G B)) {e : Expr G B} (h : NoCode e) (ρ : DEnv G B) :
    den W C c1 ρ e = den W C c2 ρ e := by
  suffices H : (∀ ρ, den W C c1 ρ e = den W C c2 ρ e) ∧ ∀ c ∈ children e, ∀ ρ, den W C c1 ρ c = den W C c2 ρ c from H.1 ρ
  induction h with
  | mk here below ih =>
    rename_i e
    refine ⟨fun ρ => ?_, fun c hc => (ih c hc).1⟩
    have hk : ∀ c ∈ children e, ∀ ρ, den W C c1 ρ c = den W C c2 ρ c := fun c hc => (ih c hc).1
    cases e with
    | deserCtx t id => exact absurd rfl (here.1 t id)
    | deserReg r t d => exact absurd rfl (here.2 r t d)
    | const c => unfold den; rfl
    | valUse id t => unfold den; rfl
    | bools l => unfold den; rfl
    | getVar id t => unfold den; rfl
    | placeholder id t => unfold den; rfl
    | valDef id r => unfold den; rfl
    | op o args => unfold den; rw [dens_congr W C (l := args) hk]
    | bin k l r => unfold den; rw [hk l (by simp [children]), hk r (by simp [children])]
    | cast up e t => unfold den; rw [hk e (by simp [children])]
    | extractReg e r t => unfold den; rw [hk e (by simp [children])]
    | selectField e i => unfold den; rw [hk e (by simp [children])]
    | byIndex e i d =>
      unfold den
      rw [hk e (by simp [children]), hk i (by simp [children]), dens_congr W C (l := d) fun x hx => hk x (by simp [children, hx])]
    | createAvl f d k v =>
      unfold den
      rw [hk f (by simp [children]), hk d (by simp [children]), hk k (by simp [children]),
        dens_congr W C (l := v) fun x hx => hk x (by simp [children, hx])]
    | coll t items => unfold den; rw [dens_congr W C (l := items) hk]
    | tuple items => unfold den; rw [dens_congr W C (l := items) hk]
    | sigma a items => unfold den; rw [dens_congr W C (l := items) hk]
    | func args body =>
      unfold den
      congr 2
      funext vs
      rw [hk body (by simp [children])]
    | apply f args =>
      unfold den
      rw [hk f (by simp [children]), dens_congr W C (l := args) fun x hx => hk x (by simp [children, hx])]
    | block items r =>
      unfold den
      rw [defs_congr W C (l := items) fun x hx => (ih x (by simp [children, hx])).2]
      congr 1
      funext ρ'
      exact hk r (by simp [children]) ρ'
    | method t m sig o args =>
      unfold den
      rw [hk o (by simp [children]), dens_congr W C (l := args) fun x hx => hk x (by simp [children, hx])]
    | property t m sig o => unfold den; rw [hk o (by simp [children])]

/-- C69: the number of levels of code from outside does not matter for scripts that run none. -/
theorem C69_closed (K K' : Nat) (e : Expr G B) (h : NoCode e) : meaning W C (K + 1) e = meaning W C (K' + 1) e :=
  den_congr W C _ _ h []

/-- `{ val x1 = 2; x1 + HEIGHT }` is such a script. -/
example : NoCode (.block [.valDef 1 (intK 2)] (.bin .plus (.valUse 1 .int) (.op .height [])) : Expr G B) := by
  have hk : ∀ i, NoCode (intK i : Expr G B) := fun i => .mk (by simp [intK]) (by simp [intK, children])
  have hv : NoCode (.valUse 1 .int : Expr G B) := .mk (by simp) (by simp [children])
  have hh : NoCode (.op .height [] : Expr G B) := .mk (by simp) (by simp [children])
  have hd : NoCode (.valDef 1 (intK 2) : Expr G B) := .mk (by simp) (by simp only [children, List.mem_singleton, forall_eq]; exact hk 2)
  have hb : NoCode (.bin .plus (.valUse 1 .int) (.op .height []) : Expr G B) := .mk (by simp) (by
    simp only [children, List.mem_cons, List.not_mem_nil, or_false, forall_eq_or_imp, forall_eq]
    exact ⟨hv, hh⟩)
  exact .mk (by simp) (by
    simp only [children, List.mem_cons, List.not_mem_nil, or_false, forall_eq_or_imp, forall_eq]
    exact ⟨hb, hd⟩)

/-! ## Violations -/

/-- `{ val x1 = 10; val x2 = (x3: Int) => x1 + x3; { val x1 = 20; x2(0) } }`. -/
def rebindScript : Expr G B :=
  .block [.valDef 1 (intK 10), .valDef 2 (.func [(3, .int)] (.bin .plus (.valUse 1 .int) (.valUse 3 .int)))]
    (.block [.valDef 1 (intK 20)] (.apply (.valUse 2 (.func [.int] .int [])) [intK 0]))

/-- C69 fails if a name is defined again while a function uses it: the meaning is 10, the interpreter gives 20. -/
theorem C69_violation_rebind (n K : Nat) (hC : C.limit = none) :
    meaning W C (K + 1) rebindScript = .ok (.val (.int 10)) ∧
    ∃ s, eval W C (n + 6) rebindScript { env := [], cost := 0 } = .ok (.int 20, s) :=
  ⟨rfl, C54_violation_dynamic W C n hC⟩

/-- C69 fails for functions that are computed: `{ val x0 = 0; val x2 = { val x1 = 1; (x3: Int) => x1 + x3 }; x2(2) }` is 3, the interpreter fails,
since the block that computes the function takes `x1` with it. -/
theorem C69_violation_closure (n K : Nat) (hC : C.limit = none) :
    let e : Expr G B := .block [.valDef 0 (intK 0),
      .valDef 2 (.block [.valDef 1 (intK 1)] (.func [(3, .int)] (.bin .plus (.valUse 1 .int) (.valUse 3 .int))))]
      (.apply (.valUse 2 (.func [.int] .int [])) [intK 2])
    meaning W C (K + 1) e = .ok (.val (.int 3)) ∧ eval W C (n + 6) e { env := [], cost := 0 } = .err .notFound := by
  obtain ⟨ht, a, b, c, d, e, f, g, lim⟩ := C
  dsimp only at hC
  subst hC
  exact ⟨rfl, rfl⟩

/-! ## A script that meets the hypotheses -/

section Demo

omit [DecidableEq G] [DecidableEq B] [DecidableEq (Value G B)] in
theorem first_mk {e : Expr G B} (h1 : (valueParts e).all (fun x => !isFuncTy x.tpe) = true)
    (h2 : (!isFuncTy e.tpe || functionNode e) = true) (h3 : ∀ c ∈ children e, FirstOrder c) : FirstOrder e := by
  refine .mk ⟨fun x hx => ?_, fun h => ?_⟩ h3
  · simpa using List.all_eq_true.1 h1 x hx
  · rw [h] at h2; simpa using h2
omit [DecidableEq G] [DecidableEq B] [DecidableEq (Value G B)] in
theorem first_nil : ∀ c ∈ ([] : List (Expr G B)), FirstOrder c := by simp
omit [DecidableEq G] [DecidableEq B] [DecidableEq (Value G B)] in
theorem first_cons {e : Expr G B} {l : List (Expr G B)} (h : FirstOrder e) (hl : ∀ c ∈ l, FirstOrder c) : ∀ c ∈ e :: l, FirstOrder c := by
  simp only [List.mem_cons, forall_eq_or_imp]
  exact ⟨h, hl⟩

theorem demo_first : FirstOrder demoScript := by
  unfold demoScript intK
  repeat' first
    | exact first_nil
    | refine first_cons ?_ ?_
    | refine first_mk rfl rfl ?_

variable [DecidableEq (Value (Fin 3) (Fin 2))]

theorem demo_first_code : FirstOrderCode demoDecls demoWorld demoCtx := by
  refine ⟨fun _ _ h => h.elim, ?_⟩
  rintro r t ⟨rfl, rfl⟩ id c h1 h2 e he
  cases h1
  cases h2
  rw [demo_code] at he
  cases he
  unfold intK
  repeat' first
    | exact first_nil
    | refine first_cons ?_ ?_
    | refine first_mk rfl rfl ?_

/-- The meaning of the example script is found without running the interpreter ... -/
theorem demo_meaning (K : Nat) : meaning demoWorld demoCtx (K + 2) demoScript = .ok (.val (.bool true)) := by
  rfl

/-- ... and so is what the interpreter answers, for every stack large enough. -/
example (n : Nat) (hn : 26 ≤ n) : reduceToCrypto demoWorld demoCtx n demoScript [] = .ok (.trivial true) := by
  rw [C69_reduce_partial demoWorld demoCtx demo_honours demo_first_code demo_small n 27 demoScript demoScript demo_typed demo_first rfl rfl
    (by
      unfold demoScript intK
      repeat' first
        | exact trivial
        | exact shown_nil
        | refine Shown.mk ?_ ?_
        | refine shown_cons ?_ ?_
        | constructor) hn (by decide)]
  show proposition (value (meaning demoWorld demoCtx 27 demoScript)) = _
  rw [demo_meaning 25]
  rfl

end Demo
end Verif
