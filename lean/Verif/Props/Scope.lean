import Verif.Proofs.EvalExt
import Verif.Props.ErgoTree

set_option linter.unusedSimpArgs false
set_option linter.unusedVariables false

/-!
# C37, C53, C54, C55: variables, termination and the result of the interpreter

The recursion budget `n` of `eval W C n` is the number of nested calls the machine stack has room for; `Res.out` is a stack
overflow.
-/

namespace Verif
open Spec
variable {G B T : Type} [DecidableEq G] [DecidableEq B] [DecidableEq (Value G B)] (W : World G B T) (C : EvalCtx G B)

/-! ## C37: bindings -/

/-- C37 (partial): evaluating an expression in an environment with at least one variable leaves all bindings as they were.  What
is missing: the empty environment, and scripts with a block or a function that binds one variable twice; for both the property is
false, see below. -/
theorem C37_bindings_kept_partial (n : Nat) (e : Expr G B) (s s' : EvalSt G B) (v : Value G B) (he : Tidy e)
    (hs : ∃ id w, s.env.get id = some w) (ht : ∀ id w, s.env.get id = some w → TidyValue w)
    (hd : ∀ t c e', CtxConst W C c → deserialize W t c = .ok e' → Tidy e')
    (h : eval W C n e s = .ok (v, s')) : SameBindings s'.env s.env :=
  (eval_keeps W C hd n e he s v s' ⟨hs, ht⟩ h).2

/-- C37: the outcome of an evaluation depends on the environment only through its bindings, and when there is no cost limit it does
not depend on the cost so far. -/
theorem C37_bindings_decide (n : Nat) (e : Expr G B) (s t : EvalSt G B) (h : Alike C.limit s t) :
    SameRes C.limit (eval W C n e s) (eval W C n e t) := (eval_same W C n e).1 s t h

/-- C37 (partial): an expression evaluated after another one gives what it gives when it is evaluated on its own (at the same cost,
if there is a limit).  What is missing: as above. -/
theorem C37_siblings_partial (n n' : Nat) (e e' : Expr G B) (s s' : EvalSt G B) (v : Value G B) (he : Tidy e)
    (hs : ∃ id w, s.env.get id = some w) (ht : ∀ id w, s.env.get id = some w → TidyValue w)
    (hd : ∀ t c e', CtxConst W C c → deserialize W t c = .ok e' → Tidy e')
    (h : eval W C n e s = .ok (v, s')) :
    SameRes C.limit (eval W C n' e' s') (eval W C n' e' { s with cost := s'.cost }) :=
  C37_bindings_decide W C n' e' _ _ ⟨C37_bindings_kept_partial W C n e s s' v he hs ht hd h, .inr rfl⟩

/-- `Int` constants. -/
def intK (n : BitVec 32) : Expr G B := .const ⟨.int, .int n⟩

/-- `{ val x1 = 7; ((x2: Int) => x1 + x2)(5) }`. -/
def scopeExample : Expr G B :=
  .block [.valDef 1 (intK 7)] (.apply (.func [(2, .int)] (.bin .plus (.valUse 1 .int) (.valUse 2 .int))) [intK 5])

omit [DecidableEq G] [DecidableEq B] [DecidableEq (Value G B)] in
theorem scopeExample_tidy : Tidy (scopeExample : Expr G B) := by
  have leaf : ∀ e : Expr G B, children e = [] → DistinctBinders e → Tidy e :=
    fun e h1 h2 => .mk h2 (by rw [h1]; simp)
  unfold scopeExample
  refine .mk (by simp [DistinctBinders, definedIds]) ?_
  simp only [children, List.mem_cons, List.not_mem_nil, or_false, forall_eq_or_imp, forall_eq]
  refine ⟨.mk trivial ?_, .mk trivial ?_⟩
  · simp only [children, List.mem_cons, List.not_mem_nil, or_false, forall_eq_or_imp, forall_eq]
    refine ⟨.mk (by simp [DistinctBinders]) ?_, leaf _ rfl trivial⟩
    simp only [children, List.mem_cons, List.not_mem_nil, or_false, forall_eq_or_imp, forall_eq]
    refine .mk trivial ?_
    simp only [children, List.mem_cons, List.not_mem_nil, or_false, forall_eq_or_imp, forall_eq]
    exact ⟨leaf _ rfl trivial, leaf _ rfl trivial⟩
  · simp only [children, List.mem_cons, List.not_mem_nil, or_false, forall_eq_or_imp, forall_eq]
    exact leaf _ rfl trivial

/-- The hypotheses hold for a script with a block and a function in an environment where its variables are taken, and the
context has no scripts: bindings 1 and 2 are as before, not 7 and 5. -/
example (hC : C.limit = none) (n : Nat) :
    ∃ s', eval W C (n + 4) scopeExample { env := [(1, .int 100), (2, .int 200)], cost := 0 } = .ok (.int 12, s') ∧
      s'.env.get 1 = some (.int 100) ∧ s'.env.get 2 = some (.int 200) := by
  obtain ⟨ht, a, b, c, d, e, f, g, lim⟩ := C
  dsimp only at hC
  subst hC
  exact ⟨_, rfl, rfl, rfl⟩

/-- A context without scripts: no context variables, and registers of the box being spent that hold no bytes. -/
example (h1 : C.extension = []) (h2 : W.box.script C.selfBox = .err) (h3 : ∀ r, W.box.reg C.selfBox r = .ok none) :
    ∀ t c e', CtxConst W C c → deserialize W t c = .ok e' → Tidy e' := by
  intro t c e' hc hd
  rcases hc with ⟨id, hid⟩ | ⟨r, hr⟩
  · rw [h1] at hid; cases hid
  · cases r with
    | r1 => simp only [getRegister, h2] at hr; cases hr
    | nm r => simp only [getRegister, h3] at hr; cases hr
    | r0 => simp only [getRegister] at hr; cases hr; cases hd
    | r2 => simp only [getRegister] at hr; cases hr; cases hd
    | r3 => simp only [getRegister] at hr; cases hr; cases hd

/-- C37 fails in the empty environment, in which every script starts: the variables of a block stay bound after the block. -/
theorem C37_violation_top (n : Nat) (id : BitVec 32) (v : Constant G B) (hC : C.limit = none) :
    ∃ s', eval W C (n + 2) (.block [.valDef id (.const v)] (.valUse id v.tpe)) { env := [], cost := 0 } =
      .ok (Value.ofLiteral v.v, s') ∧ s'.env.get id = some (Value.ofLiteral v.v) := by
  obtain ⟨ht, a, b, c, d, e, f, g, lim⟩ := C
  dsimp only at hC
  subst hC
  refine ⟨{ env := [(id, Value.ofLiteral v.v)], cost := 3 }, ?_, ?_⟩
  · rw [eval_succ_run _ _ _ _ _ rfl]
    show evalBlock _ _ _ _ = _
    unfold evalBlock
    rw [EvalM.bind_ok (show (envIsEmpty : EvalM G B Bool) _ = .ok (true, _) from rfl)]
    simp only [if_true]
    have h1 : blockTop (eval W ⟨ht, a, b, c, d, e, f, g, none⟩ (n + 1)) [.valDef id (.const v)] { env := [], cost := 0 + 1 } =
        .ok ((), { env := [(id, Value.ofLiteral v.v)], cost := 2 }) := rfl
    rw [EvalM.bind_ok h1, eval_succ_run _ _ _ _ _ rfl]
    show useVar id _ = _
    simp [useVar, FMap.get]
  · simp [FMap.get]

/-- C37 fails in the empty environment: `{ val x = 3; x } + x` has the value 6, although `x` on its own is an error. -/
theorem C37_violation_siblings (n : Nat) (hC : C.limit = none) :
    (∃ s', eval W C (n + 3) (.bin .plus (.block [.valDef 1 (intK 3)] (.valUse 1 .int)) (.valUse 1 .int)) { env := [], cost := 0 } =
      .ok (.int 6, s')) ∧
    eval W C (n + 2) (.valUse 1 .int) { env := [], cost := 0 } = .err .notFound := by
  obtain ⟨ht, a, b, c, d, e, f, g, lim⟩ := C
  dsimp only at hC
  subst hC
  exact ⟨⟨_, rfl⟩, rfl⟩

/-- C37 fails for a block that defines a variable twice: afterwards the variable has the value of the first definition. -/
theorem C37_violation_block_twice (n : Nat) (hC : C.limit = none) :
    ∃ s', eval W C (n + 2) (.block [.valDef 1 (intK 3), .valDef 1 (intK 4)] (.valUse 1 .int))
      { env := [(1, .int 100)], cost := 0 } = .ok (.int 4, s') ∧ s'.env.get 1 = some (.int 3) := by
  obtain ⟨ht, a, b, c, d, e, f, g, lim⟩ := C
  dsimp only at hC
  subst hC
  exact ⟨_, rfl, rfl⟩

/-- C37 fails for a function with two parameters of one name. -/
theorem C37_violation_func_twice (n : Nat) (hC : C.limit = none) :
    ∃ s', eval W C (n + 2) (.apply (.func [(1, .int), (1, .int)] (.valUse 1 .int)) [intK 3, intK 4])
      { env := [(1, .int 100)], cost := 0 } = .ok (.int 4, s') ∧ s'.env.get 1 = some (.int 3) := by
  obtain ⟨ht, a, b, c, d, e, f, g, lim⟩ := C
  dsimp only at hC
  subst hC
  exact ⟨_, rfl, rfl⟩

/-! ## C54: functions and the variables in force where they are written -/

/-- C54 fails: a function does not keep the variables of the place where it is written.  `((x) => (y) => x + y)(1)(2)` is an
error, not 3. -/
theorem C54_violation_closure (n : Nat) (hC : C.limit = none) :
    eval W C (n + 6) (.apply (.apply (.func [(1, .int)] (.func [(2, .int)] (.bin .plus (.valUse 1 .int) (.valUse 2 .int)))) [intK 1])
      [intK 2]) { env := [], cost := 0 } = .err .notFound := by
  obtain ⟨ht, a, b, c, d, e, f, g, lim⟩ := C
  dsimp only at hC
  subst hC
  rfl

/-- C54 fails: a function sees the variables of the place where it is called.
`{ val x = 10; val f = (y) => x + y; { val x = 20; f(0) } }` is 20, not 10. -/
theorem C54_violation_dynamic (n : Nat) (hC : C.limit = none) :
    ∃ s', eval W C (n + 6) (.block
      [.valDef 1 (intK 10), .valDef 2 (.func [(3, .int)] (.bin .plus (.valUse 1 .int) (.valUse 3 .int)))]
      (.block [.valDef 1 (intK 20)] (.apply (.valUse 2 (.func [.int] .int [])) [intK 0]))) { env := [], cost := 0 } =
      .ok (.int 20, s') := by
  obtain ⟨ht, a, b, c, d, e, f, g, lim⟩ := C
  dsimp only at hC
  subst hC
  exact ⟨_, rfl⟩

/-- C54 (partial): applying a function to one argument evaluates its body with the parameter bound to the value of the argument,
and everything else as at the place of the call.  What is missing: the variables should be those of the place where the function
is written. -/
theorem C54_apply_partial (n : Nat) (f arg : Expr G B) (id : BitVec 32) (t : SType) (body : Expr G B) (a v : Value G B)
    (s s1 s2 s3 : EvalSt G B) (hC : C.limit = none)
    (hf : eval W C n f { s with cost := s.cost + 1 } = .ok (.lam [(id, t)] body, s1)) (ha : eval W C n arg s1 = .ok (a, s2))
    (hb : eval W C n body { s2 with env := s2.env.insert id a } = .ok (v, s3)) :
    ∃ s4, eval W C (n + 1) (.apply f [arg]) s = .ok (v, s4) ∧ s4.env.get id = s2.env.get id ∧
      ∀ i, i ≠ id → s4.env.get i = s3.env.get i := by
  rw [eval_succ_run W C n _ s hC]
  have hall : evalAll (eval W C n) [arg] s1 = .ok ([a], s2) := by
    unfold evalAll
    rw [EvalM.bind_ok ha]
    rfl
  have hstep : step W C (eval W C n) (.apply f [arg]) { s with cost := s.cost + 1 } =
      applyLam (eval W C n) (.lam [(id, t)] body) [a] s2 := by
    show (eval W C n f >>= fun fv => evalAll (eval W C n) [arg] >>= fun vs => applyLam (eval W C n) fv vs) _ = _
    rw [EvalM.bind_ok hf, EvalM.bind_ok hall]
  have hbind : bindArgs ((([(id, t)] : List (BitVec 32 × SType)).map Prod.fst).zip [a]) { existing := [], news := [] } s2 =
      .ok (Saved.note { existing := [], news := [] } s2.env id, { s2 with env := s2.env.insert id a }) := rfl
  refine ⟨{ s3 with env := (Saved.note { existing := [], news := [] } s2.env id).restore s3.env }, ?_, ?_, ?_⟩
  · rw [hstep]
    unfold applyLam
    dsimp only
    rw [EvalM.bind_ok hbind, EvalM.bind_ok hb]
    rfl
  · dsimp only
    unfold Saved.note Saved.restore
    cases hg : s2.env.get id with
    | some o => simp [FMap.insert, get_insert']
    | none => simp [get_erase']
  · intro i hi
    dsimp only
    unfold Saved.note Saved.restore
    cases hg : s2.env.get id with
    | some o => simp [FMap.insert, get_insert', hi]
    | none => simp [get_erase', hi]

/-! ## C53: termination -/

/-- C53: with a cost limit `L`, every evaluation ends within a nesting of `L + 1` calls. -/
theorem C53_limit (L : Nat) (hL : C.limit = some L) (n : Nat) (hn : L < n) (e : Expr G B) (s : EvalSt G B) :
    eval W C n e s ≠ .out :=
  (eval_bounded W C L hL n s.cost e (by omega) (by omega) s (Nat.le_refl _)).1

/-- C53: the outcome of an evaluation that ends does not depend on the size of the stack. -/
theorem C53_stack (n m : Nat) (hm : n ≤ m) (e : Expr G B) (s : EvalSt G B) (h : eval W C n e s ≠ .out) :
    eval W C m e s = eval W C n e s := by
  obtain ⟨k, rfl⟩ := Nat.exists_eq_add_of_le hm
  exact eval_mono W C n k e s h

/-- With a limit of 4, `7 + 8` ends (with the value) and `7 + 8 + 9` ends (with an error). -/
example (hC : C.limit = some 4) (n : Nat) :
    (∃ s', eval W C (n + 2) (.bin .plus (intK 7) (intK 8)) { env := [], cost := 0 } = .ok (.int 15, s')) ∧
    eval W C (n + 3) (.bin .plus (.bin .plus (intK 7) (intK 8)) (intK 9)) { env := [], cost := 0 } = .err .cost := by
  obtain ⟨ht, a, b, c, d, e, f, g, lim⟩ := C
  dsimp only at hC
  subst hC
  exact ⟨⟨_, rfl⟩, rfl⟩

/-- The type `Boolean => Boolean`. -/
def boolFn : SType := .func [.bool] .bool []

/-- The function that calls itself. -/
def loopBody : Expr G B := .apply (.valUse 1 boolFn) [.valUse 2 .bool]

/-- `sigmaProp({ val f = (x: Boolean) => x; val f = (x: Boolean) => f(x); f(true) })`. -/
def loopScript : Expr G B :=
  .op .boolToSigmaProp [.block [.valDef 1 (.func [(2, .bool)] (.valUse 2 .bool)), .valDef 1 (.func [(2, .bool)] loopBody)]
    (.apply (.valUse 1 boolFn) [.const ⟨.bool, .bool true⟩])]

omit [DecidableEq (Value G B)] in
theorem eval_var [DecidableEq (Value G B)] (hC : C.limit = none) (id : BitVec 32) (t : SType) (n : Nat) (s : EvalSt G B) (v : Value G B)
    (h : s.env.get id = some v) : eval W C (n + 1) (.valUse id t) s = .ok (v, { s with cost := s.cost + 1 }) := by
  rw [eval_succ_run W C n _ s hC]
  show useVar id _ = _
  simp [useVar, h]

theorem loopBody_out (hC : C.limit = none) : ∀ (n : Nat) (s : EvalSt G B), s.env.get 1 = some (.lam [(2, .bool)] loopBody) →
    (∃ v, s.env.get 2 = some v) → eval W C n loopBody s = .out
  | 0, s, _, _ => rfl
  | 1, s, _, _ => by
    rw [eval_succ_run W C 0 _ s hC]
    rfl
  | n + 2, s, h1, ⟨v, h2⟩ => by
    rw [eval_succ_run W C (n + 1) _ s hC]
    have hf := eval_var W C hC 1 boolFn n { s with cost := s.cost + 1 } _ h1
    have ha := eval_var W C hC 2 .bool n { s with cost := s.cost + 1 + 1 } v h2
    have hall : evalAll (eval W C (n + 1)) [.valUse 2 .bool] { s with cost := s.cost + 1 + 1 } =
        .ok ([v], { s with cost := s.cost + 1 + 1 + 1 }) := by
      unfold evalAll
      rw [EvalM.bind_ok ha]
      rfl
    have hstep : step W C (eval W C (n + 1)) loopBody { s with cost := s.cost + 1 } =
        applyLam (eval W C (n + 1)) (.lam [(2, .bool)] loopBody) [v] { s with cost := s.cost + 1 + 1 + 1 } := by
      show (eval W C (n + 1) (.valUse 1 boolFn) >>= fun fv => evalAll (eval W C (n + 1)) [.valUse 2 .bool] >>= fun vs =>
        applyLam (eval W C (n + 1)) fv vs) _ = _
      rw [EvalM.bind_ok hf, EvalM.bind_ok hall]
    rw [hstep]
    unfold applyLam
    dsimp only
    have hbind : bindArgs ((([(2, .bool)] : List (BitVec 32 × SType)).map Prod.fst).zip [v]) { existing := [], news := [] }
        { s with cost := s.cost + 1 + 1 + 1 } = .ok (Saved.note { existing := [], news := [] } s.env 2,
          { env := s.env.insert 2 v, cost := s.cost + 1 + 1 + 1 }) := rfl
    rw [EvalM.bind_ok hbind]
    refine EvalM.bind_out (loopBody_out hC (n + 1) _ ?_ ⟨v, ?_⟩)
    · dsimp only; rw [get_insert', if_neg (by decide), h1]
    · dsimp only; rw [get_insert', if_pos rfl]

/-- The second definition of `f` is in force when `f(true)` is evaluated. -/
theorem loopScript_out (hC : C.limit = none) (n : Nat) : eval W C n loopScript { env := [], cost := 0 } = .out := by
  have key : eval W C (n + 5) loopScript { env := [], cost := 0 } = .out := by
    obtain ⟨ht, a, b, c, d, e, f, g, lim⟩ := C
    dsimp only at hC
    subst hC
    generalize hCC : (⟨ht, a, b, c, d, e, f, g, none⟩ : EvalCtx G B) = C
    have hC : C.limit = none := by rw [← hCC]
    rw [eval_succ_run W C (n + 4) _ _ hC]
    show evalOp W C (eval W C (n + 4)) .boolToSigmaProp _ _ = _
    rw [evalOp_strict W C _ _ rfl]
    refine EvalM.bind_out ?_
    unfold evalAll
    refine EvalM.bind_out ?_
    rw [eval_succ_run W C (n + 3) _ _ hC]
    show evalBlock _ _ _ _ = _
    unfold evalBlock
    rw [EvalM.bind_ok (show (envIsEmpty : EvalM G B Bool) _ = .ok (true, _) from rfl)]
    simp only [if_true]
    have h1 : blockTop (eval W C (n + 3)) [.valDef 1 (.func [(2, .bool)] (.valUse 2 .bool)), .valDef 1 (.func [(2, .bool)] loopBody)]
        { env := [], cost := 0 + 1 + 1 } = .ok ((), { env := [(1, .lam [(2, .bool)] loopBody)], cost := 4 }) := by
      subst hCC; rfl
    rw [EvalM.bind_ok h1, eval_succ_run W C (n + 2) _ _ hC]
    have h2 : evalAll (eval W C (n + 2)) [.const ⟨.bool, .bool true⟩] { env := [(1, .lam [(2, .bool)] loopBody)], cost := 6 } =
        .ok ([.bool true], { env := [(1, .lam [(2, .bool)] loopBody)], cost := 7 }) := by subst hCC; rfl
    have hf := eval_var W C hC 1 boolFn (n + 1) { env := [(1, .lam [(2, .bool)] loopBody)], cost := 5 } _ rfl
    show (eval W C (n + 2) (.valUse 1 boolFn) >>= fun fv => evalAll (eval W C (n + 2)) [.const ⟨.bool, .bool true⟩] >>= fun vs =>
        applyLam (eval W C (n + 2)) fv vs) _ = _
    rw [EvalM.bind_ok hf, EvalM.bind_ok h2]
    unfold applyLam
    dsimp only
    have hbind : bindArgs (G := G) (B := B) ((([(2, .bool)] : List (BitVec 32 × SType)).map Prod.fst).zip [.bool true])
        { existing := [], news := [] } { env := [(1, .lam [(2, .bool)] loopBody)], cost := 7 } = .ok ({ existing := [], news := [2] },
          { env := [(1, .lam [(2, .bool)] loopBody), (2, .bool true)], cost := 7 }) := rfl
    rw [EvalM.bind_ok hbind]
    exact EvalM.bind_out (loopBody_out W C hC (n + 2) _ rfl ⟨.bool true, rfl⟩)
  by_contra h
  exact h ((eval_mono W C n 5 _ _ h).symm.trans key)

/-- C53 fails without a limit, and `reduce_to_crypto` sets none: there is a script that is read from 30 bytes and on which the
evaluation overflows the stack, whatever its size. -/
theorem C53_violation_loop : (∀ n, reduceToCrypto W C n loopScript [] = .out) ∧
    ETree.parseBytes toySers noMethods
      [0, 209, 216, 2, 214, 1, 217, 1, 2, 1, 114, 2, 214, 1, 217, 1, 2, 1, 218, 114, 1, 1, 114, 2, 218, 114, 1, 1, 1, 1] =
      some (.parsed ⟨0, false, false⟩ [] loopScript) := by
  refine ⟨fun n => ?_, by with_unfolding_all rfl⟩
  unfold reduceToCrypto reduceOnce
  rw [loopScript_out W { C with limit := none } rfl n]

/-! ## C55: the result of `reduce_to_crypto` -/

/-- `if (false) sigmaProp(true) else 1`: the type of the node is that of its first branch. -/
def badResult : Expr G B :=
  .op .ifOp [.const ⟨.bool, .bool false⟩, .op .boolToSigmaProp [.const ⟨.bool, .bool true⟩], intK 1]

/-- C55 fails: the result of a script of type `SigmaProp` need not be a proposition, and then `reduce_to_crypto` panics. -/
theorem C55_violation_panic (n : Nat) : reduceToCrypto W C (n + 2) badResult [] = .panic ∧
    ETree.parseBytes toySers noMethods [0, 149, 1, 0, 209, 1, 1, 4, 2] = some (.parsed ⟨0, false, false⟩ [] badResult) ∧
    (badResult : Expr G B).tpe = .sigmaProp := by
  refine ⟨?_, by with_unfolding_all rfl, rfl⟩
  have h : eval W { C with limit := none } (n + 2) badResult { env := [], cost := 0 } = .ok (.int 1, { env := [], cost := 3 }) := rfl
  have h1 : reduceOnce W C (n + 2) badResult [] = .ok none := by unfold reduceOnce; rw [h]
  have h2 : (badResult : Expr G B).prettyPrint W.mode = .ok badResult := rfl
  unfold reduceToCrypto reduceAgain
  simp only [h1, h2]

/-- C55 (partial): a script that evaluates to `true` gives the trivial proposition, one that evaluates to a proposition other than
the trivial false gives that proposition; if the printer copies the script, `false` gives the trivial false and an error of the script is
returned.  What is missing: other results, for which see above; what the printer does with a script is the subject of C66
(`Props/Printer.lean`), where the last two are false without the hypothesis. -/
theorem C55_result_partial (n : Nat) (e : Expr G B) (env : FMap (BitVec 32) (Value G B)) (s : EvalSt G B) :
    (eval W { C with limit := none } n e { env := env, cost := 0 } = .ok (.bool true, s) →
      reduceToCrypto W C n e env = .ok (.trivial true)) ∧
    (∀ p, eval W { C with limit := none } n e { env := env, cost := 0 } = .ok (.sigmaProp p, s) → p ≠ .trivial false →
      reduceToCrypto W C n e env = .ok p) ∧
    (e.prettyPrint W.mode = .ok e →
      (eval W { C with limit := none } n e { env := env, cost := 0 } = .ok (.bool false, s) →
        reduceToCrypto W C n e env = .ok (.trivial false)) ∧
      (eval W { C with limit := none } n e { env := env, cost := 0 } = .ok (.sigmaProp (.trivial false), s) →
        reduceToCrypto W C n e env = .ok (.trivial false)) ∧
      ∀ r, eval W { C with limit := none } n e { env := env, cost := 0 } = .err r → reduceToCrypto W C n e env = .err r) := by
  refine ⟨fun h => ?_, fun p h hp => ?_, fun hpp => ⟨fun h => ?_, fun h => ?_, fun r h => ?_⟩⟩
  · unfold reduceToCrypto reduceOnce
    rw [h]
  · unfold reduceToCrypto reduceOnce
    rw [h]
    cases p with
    | trivial b => cases b with
      | true => rfl
      | false => exact absurd rfl hp
    | _ => rfl
  · unfold reduceToCrypto reduceOnce
    simp only [h, hpp]
  · unfold reduceToCrypto reduceOnce
    simp only [h, hpp]
  · have h1 : reduceOnce W C n e env = .err r := by unfold reduceOnce; rw [h]
    unfold reduceToCrypto reduceAgain
    simp only [h1, hpp]

example (n : Nat) : reduceToCrypto W C (n + 3) (.bin .gt (intK 3) (intK 2)) [] = .ok (.trivial true) ∧
    reduceToCrypto W C (n + 3) (.op .boolToSigmaProp [.bin .gt (intK 2) (intK 3)]) [] = .ok (.trivial false) := ⟨rfl, rfl⟩

end Verif
