import Verif.Proofs.ReduceTwice
import Verif.Proofs.PrinterGood
import Verif.Props.Scope

set_option linter.unusedSimpArgs false
set_option linter.unusedVariables false

/-!
# C66: the diagnostics of `reduce_to_crypto` do not change the verdict

`reduce_to_crypto` (`eval.rs:129-187`) is called by the verifier (`verifier.rs:71`), the prover (`prover.rs:151`), for reduced
transactions (`reduced.rs:87`) and for multi-signatures (`multi_sig.rs:259, 287`).  To explain a failure it prints the script and evaluates
what the printer returns.  The outcome should be that of the one evaluation of the script.
-/

namespace Verif
open Spec Expr
variable {G B T : Type} [DecidableEq G] [DecidableEq B] [DecidableEq (Value G B)]

omit [DecidableEq G] [DecidableEq B] [DecidableEq (Value G B)] in
/-- C66: whatever the printer returns is the expression it was given, except that every `Coll[Boolean]` of constants it came across
is one constant collection; the type is the same. -/
theorem C66_rebuilt (m : Mode) (e e' : Expr G B) (h : e.prettyPrint m = .ok e') : e' = collapse e ∧ e'.tpe = e.tpe := by
  unfold Expr.prettyPrint at h
  obtain ⟨a, ha, h⟩ := Outcome.bind_eq_ok.1 h
  cases h
  rw [print_eq m _ _ _ ha]
  exact ⟨rfl, tpe_collapse e⟩

omit [DecidableEq G] [DecidableEq B] [DecidableEq (Value G B)] in
/-- C66 (partial): an expression that was read is printed without a panic, if its folds, upcasts and collections are well typed,
every `Filter` and `Fold` is given a function written out, and it is not too large for a 63-bit indentation.  What is missing: all
other expressions, for which see the violations below. -/
theorem C66_prints_partial (m : Mode) {utf8 : Bytes → Bool} {bwf : B → Prop} {R : Reader G B} (st : TStore) (e : Expr G B)
    (hg : Good utf8 bwf R e st) (hb : Shown BuildsAgain e) (ho : Shown OwnFunction e) (hn : 6 * nodes e < 2 ^ 63) :
    e.prettyPrint m = .ok (collapse e) := by
  obtain ⟨j, hj, _⟩ := print_ok m e ((good_reads e st hg).and (hb.and ho)) 0 (by rw [show (0 : BitVec 64).toNat = 0 from rfl]; omega)
  unfold Expr.prettyPrint
  rw [bind_ok' hj]
  rfl

variable (W : World G B T) (C : EvalCtx G B)

/-- C66 (partial): if the script prints and no function body in it has a `Coll[Boolean]` of constants, the outcome is that of one
evaluation of the script.  What is missing: the scripts that do not print, and those with such function bodies. -/
theorem C66_one_evaluation_partial (n : Nat) (e e' : Expr G B) (env : FMap (BitVec 32) (Value G B))
    (hp : e.prettyPrint W.mode = .ok e') (hf : Shown PlainBody e) :
    reduceToCrypto W C n e env =
      match eval W { C with limit := none } n e { env := env, cost := 0 } with
      | .ok (.bool b, _) => .ok (.trivial b)
      | .ok (.sigmaProp p, _) => .ok p
      | .ok _ => .panic
      | .err r => .err r
      | .panic => .panic
      | .out => .out := by
  have he := (C66_rebuilt W.mode e e' hp).1
  subst he
  have h2 := reduceOnce_collapse W C n e env hf
  have h1 : reduceOnce W C n e env = match eval W { C with limit := none } n e { env := env, cost := 0 } with
      | .ok (.bool b, _) => .ok (some (.trivial b))
      | .ok (.sigmaProp p, _) => .ok (some p)
      | .ok _ => .ok none
      | .err e => .err e
      | .panic => .panic
      | .out => .out := rfl
  unfold reduceToCrypto reduceAgain
  rw [hp]
  dsimp only
  generalize eval W { C with limit := none } n e { env := env, cost := 0 } = r at h1 ⊢
  generalize reduceOnce W C n (collapse e) env = x at h2 ⊢
  rw [h1] at h2 ⊢
  clear h1
  cases r with
  | ok q =>
    obtain ⟨v, s⟩ := q
    cases v with
    | bool b => cases b <;> rfl
    | sigmaProp p =>
      cases p with
      | trivial b => cases b <;> rfl
      | _ => rfl
    | _ =>
      rcases h2 with h2 | h2
      · cases h2
      · rw [h2]
  | err r =>
    rcases h2 with h2 | h2
    · cases h2
    · rw [h2]
  | panic => rfl
  | out => rfl

/-- The proposition a result stands for. -/
def asProp : Value G B → Option (SigmaBoolean G)
  | .bool b => some (.trivial b)
  | .sigmaProp p => some p
  | _ => none

/-- C66: a proposition that `reduce_to_crypto` returns comes from an evaluation of the script, or, if that gave no proposition, from an
evaluation of the script with its collections of Boolean constants rewritten. -/
theorem C66_source (n : Nat) (e : Expr G B) (env : FMap (BitVec 32) (Value G B)) (p : SigmaBoolean G)
    (h : reduceToCrypto W C n e env = .ok p) :
    (∃ v s, eval W { C with limit := none } n e { env := env, cost := 0 } = .ok (v, s) ∧ asProp v = some p) ∨
    ((∀ v s, eval W { C with limit := none } n e { env := env, cost := 0 } = .ok (v, s) → asProp v = none) ∧
      ∃ v s, eval W { C with limit := none } n (collapse e) { env := env, cost := 0 } = .ok (v, s) ∧ asProp v = some p) := by
  have once : ∀ (x : Expr G B) r, reduceOnce W C n x env = .ok r →
      ∃ v s, eval W { C with limit := none } n x { env := env, cost := 0 } = .ok (v, s) ∧ asProp v = r := by
    intro x r h
    unfold reduceOnce at h
    split at h <;> cases h
    · next b s hx => exact ⟨_, s, hx, rfl⟩
    · next q s hx => exact ⟨_, s, hx, rfl⟩
    · next q h1 h2 hx =>
      obtain ⟨v, s⟩ := q
      refine ⟨v, s, hx, ?_⟩
      cases v with
      | bool b => exact (h1 b s rfl).elim
      | sigmaProp q => exact (h2 q s rfl).elim
      | _ => rfl
  have again : reduceAgain W C n e env = .ok p →
      ∃ v s, eval W { C with limit := none } n (collapse e) { env := env, cost := 0 } = .ok (v, s) ∧ asProp v = some p := by
    intro h
    unfold reduceAgain at h
    split at h
    · next e' he =>
      rw [(C66_rebuilt W.mode e e' he).1] at h
      split at h <;> cases h
      next hq => exact once _ _ hq
    · cases h
    · cases h
  unfold reduceToCrypto at h
  split at h
  · next hq =>
    split at h <;> cases h
    exact .inl (once _ _ hq)
  · next q _ hq => cases h; exact .inl (once _ _ hq)
  · next hq =>
    obtain ⟨v, s, h1, h2⟩ := once _ _ hq
    refine .inr ⟨fun v' s' h' => ?_, again h⟩
    rw [h1] at h'
    cases h'
    exact h2
  · next r hq =>
    refine .inr ⟨fun v' s' h' => ?_, again h⟩
    unfold reduceOnce at hq
    rw [h'] at hq
    cases v' <;> cases hq
  · cases h
  · cases h

/-- C66 (partial): the same for a script as it was read.  What is missing: as above. -/
theorem C66_read_partial {utf8 : Bytes → Bool} {bwf : B → Prop} {R : Reader G B} (st : TStore) (n : Nat) (e : Expr G B)
    (env : FMap (BitVec 32) (Value G B)) (hg : Good utf8 bwf R e st) (hb : Shown BuildsAgain e) (ho : Shown OwnFunction e)
    (hn : 6 * nodes e < 2 ^ 63) (hf : Shown PlainBody e) :
    reduceToCrypto W C n e env =
      match eval W { C with limit := none } n e { env := env, cost := 0 } with
      | .ok (.bool b, _) => .ok (.trivial b)
      | .ok (.sigmaProp p, _) => .ok p
      | .ok _ => .panic
      | .err r => .err r
      | .panic => .panic
      | .out => .out :=
  C66_one_evaluation_partial W C n e _ env (C66_prints_partial W.mode st e hg hb ho hn) hf

/-- `INPUTS.filter({ (x: Box) => x.value > 5 }).size > 3 && Coll[Boolean](true, false)(0)`. -/
def plainScript : Expr G B :=
  .bin .and
    (.bin .gt (.op .sizeOf [.op .filter [.op .inputs [],
      .func [(1, .box)] (.bin .gt (.op .extractAmount [.valUse 1 .box]) (.const ⟨.long, .long 5⟩))]]) (intK 3))
    (.byIndex (.coll .bool [boolExpr true, boolExpr false]) (intK 0) [])

/-- The hypotheses of C66 hold of a script that filters and that the printer changes. -/
example : Shown ReadsAgain (plainScript : Expr G B) ∧ Shown BuildsAgain (plainScript : Expr G B) ∧
    Shown OwnFunction (plainScript : Expr G B) ∧ Shown PlainBody (plainScript : Expr G B) ∧ 6 * nodes (plainScript : Expr G B) < 2 ^ 63 ∧
    collapse (plainScript : Expr G B) ≠ plainScript := by
  have hb : ∀ x ∈ [boolExpr true, boolExpr false], (x : Expr G B).tpe = .bool := by
    intro x hx
    simp only [List.mem_cons, List.not_mem_nil, or_false] at hx
    rcases hx with rfl | rfl <;> rfl
  have ho : ∃ f ∈ ([.op .inputs [], .func [(1, .box)] (.bin .gt (.op .extractAmount [.valUse 1 .box]) (.const ⟨.long, .long 5⟩))] :
      List (Expr G B)), isFunc f = true := ⟨_, List.mem_cons_of_mem _ (List.mem_cons_self ..), rfl⟩
  refine ⟨?_, ?_, ?_, ?_, by simp [plainScript, nodes, nodesAll, boolExpr, intK], fun h => ?_⟩
  · unfold plainScript
    repeat' first
      | exact trivial
      | (intro h; exact absurd h (by decide))
      | (intro _; rfl)
      | rfl
      | refine Shown.mk ?_ ?_
      | exact shown_nil
      | refine shown_cons ?_ ?_
  · unfold plainScript
    repeat' first
      | exact trivial
      | refine Shown.mk ?_ ?_
      | exact shown_nil
      | refine shown_cons ?_ ?_
      | exact hb
  · unfold plainScript
    repeat' first
      | exact trivial
      | refine Shown.mk ?_ ?_
      | exact shown_nil
      | refine shown_cons ?_ ?_
      | exact ho
  · unfold plainScript
    repeat' first
      | exact trivial
      | refine Shown.mk ?_ ?_
      | exact shown_nil
      | refine shown_cons ?_ ?_
      | rfl
  · simp [plainScript, collapse, boolValues, boolExpr] at h

/-- The same script as the reader returns it. -/
example : Expr.parse toySers (treeReader [] noMethods) []
    [237, 145, 177, 181, 164, 217, 1, 1, 99, 145, 193, 114, 1, 5, 10, 4, 6, 178, 131, 2, 1, 1, 1, 1, 0, 4, 0, 0] =
      some ((plainScript, [(1, .box)]), []) := by with_unfolding_all rfl

/-! ## Violations -/

/-- `sigmaProp(if (false) x else false)`: `x` is never evaluated. -/
def deadCode (x : Expr G B) : Expr G B := .op .boolToSigmaProp [.op .ifOp [boolExpr false, x, boolExpr false]]

theorem deadCode_once (n : Nat) (x : Expr G B) : reduceOnce W C (n + 3) (deadCode x) [] = .ok (some (.trivial false)) := rfl

theorem deadCode_panics (n : Nat) (x : Expr G B) (h : print W.mode x 0 = .panic) : reduceToCrypto W C (n + 3) (deadCode x) [] = .panic := by
  have hp : (deadCode x).prettyPrint W.mode = .panic := by
    unfold deadCode Expr.prettyPrint boolExpr
    simp only [print, printAll, Outcome.bind_ok, Outcome.bind_panic, h]
  unfold reduceToCrypto
  rw [deadCode_once]
  simp only [hp]

/-- `Coll[Int](true).size > 5`. -/
def badColl : Expr G B := .bin .gt (.op .sizeOf [.coll .int [boolExpr true]]) (intK 5)
/-- `true.upcast(Int) > 5`. -/
def badUpcast : Expr G B := .bin .gt (.cast true (boolExpr true) .int) (intK 5)
/-- `INPUTS.fold(0)({ (x: Int) => x }) > 5`. -/
def badFold : Expr G B := .bin .gt (.op .fold [.op .inputs [], intK 0, .func [(1, .int)] (.valUse 1 .int)]) (intK 5)

/-- C66 fails: a script that reduces to `false` makes `reduce_to_crypto` panic when it contains, even in code that is not executed, a
collection with an item of another type, an upcast of something that is not a number, or a fold whose function does not take the
pairs.  All of these are read without complaint. -/
theorem C66_violation_panic (n : Nat) :
    (reduceToCrypto W C (n + 3) (deadCode badColl) [] = .panic ∧
      ETree.parseBytes toySers noMethods [0, 209, 149, 1, 0, 145, 177, 131, 1, 4, 1, 1, 4, 10, 1, 0] =
        some (.parsed ⟨0, false, false⟩ [] (deadCode badColl))) ∧
    (reduceToCrypto W C (n + 3) (deadCode badUpcast) [] = .panic ∧
      ETree.parseBytes toySers noMethods [0, 209, 149, 1, 0, 145, 126, 1, 1, 4, 4, 10, 1, 0] =
        some (.parsed ⟨0, false, false⟩ [] (deadCode badUpcast))) ∧
    (reduceToCrypto W C (n + 3) (deadCode badFold) [] = .panic ∧
      ETree.parseBytes toySers noMethods [0, 209, 149, 1, 0, 145, 176, 164, 4, 0, 217, 1, 1, 4, 114, 1, 4, 10, 1, 0] =
        some (.parsed ⟨0, false, false⟩ [] (deadCode badFold))) := by
  refine ⟨⟨deadCode_panics W C n _ ?_, ?_⟩, ⟨deadCode_panics W C n _ ?_, ?_⟩, ⟨deadCode_panics W C n _ ?_, ?_⟩⟩
  · cases W.mode <;> rfl
  · with_unfolding_all rfl
  · cases W.mode <;> rfl
  · with_unfolding_all rfl
  · cases W.mode <;>
      simp [badFold, intK, print, printAll, incIndent, decIndent, printIndent, indentStep, closeIndent, orPanic, rebuildOk, tpes, tpe,
        foldOk, SOp.resTpe, SType.postEval, SType.beqList, SType.beq]
  · with_unfolding_all rfl

/-- `{ val f = { (x: Box) => true }; val a = INPUTS.filter(f); val b = INPUTS.filter(f); false }`. -/
def namedFilter : Expr G B :=
  .block [.valDef 1 (.func [(2, .box)] (boolExpr true)),
    .valDef 3 (.op .filter [.op .inputs [], .valUse 1 (.func [.box] .bool [])]),
    .valDef 4 (.op .filter [.op .inputs [], .valUse 1 (.func [.box] .bool [])])] (boolExpr false)

/-- C66 fails: every `filter` and `fold` takes two columns off the indentation, which only a function written out puts there.  With two
filters by a named function the counter of columns goes below zero: a panic with overflow checks, and without them an attempt to
write 2⁶⁴ - 2 spaces. -/
theorem C66_violation_indent (n : Nat) :
    reduceToCrypto W C (n + 3) (deadCode namedFilter) [] = .panic ∧
    ETree.parseBytes toySers noMethods
      [0, 209, 149, 1, 0, 216, 3, 214, 1, 217, 1, 2, 99, 1, 1, 214, 3, 181, 164, 114, 1, 214, 4, 181, 164, 114, 1, 1, 0, 1, 0] =
        some (.parsed ⟨0, false, false⟩ [] (deadCode namedFilter)) ∧
    Shown BuildsAgain (deadCode namedFilter : Expr G B) := by
  refine ⟨deadCode_panics W C n _ ?_, ?_, ?_⟩
  · cases W.mode <;>
      simp [namedFilter, boolExpr, print, printAll, printLines, incIndent, decIndent, printIndent, indentStep, closeIndent, orPanic,
        rebuildOk, tpes, tpe, SOp.check, SOp.predicateOn, SOp.resTpe, SType.postEval, SType.beqList, SType.beq]
  · with_unfolding_all rfl
  · unfold deadCode namedFilter boolExpr
    repeat' first
      | exact trivial
      | refine Shown.mk ?_ ?_
      | exact shown_nil
      | refine shown_cons ?_ ?_

/-- `sigmaProp(if ({ (x: Boolean) => Coll[Boolean](true) } == { (x: Boolean) => Coll(true) }) true else getVar[Boolean](0).get)`, the
second collection being a constant. -/
def retryScript : Expr G B :=
  .op .boolToSigmaProp [.op .ifOp [
    .bin .eq (.func [(1, .bool)] (.coll .bool [boolExpr true])) (.func [(1, .bool)] (.bools [true])),
    boolExpr true,
    .op .optionGet [.getVar 0 .bool]]]

/-- C66 fails: the second evaluation can accept.  The evaluation of this script ends in an error whenever variable 0 is missing, and yet
`reduce_to_crypto` returns the trivial truth, since the printer has made the two functions equal. -/
theorem C66_violation_accepts (n : Nat) (h : C.extension.get 0 = none) :
    (∃ r, eval W { C with limit := none } (n + 5) retryScript { env := [], cost := 0 } = .err r) ∧
    reduceToCrypto W C (n + 5) retryScript [] = .ok (.trivial true) ∧
    ETree.parseBytes toySers noMethods
      [0, 209, 149, 147, 217, 1, 1, 1, 131, 1, 1, 1, 1, 217, 1, 1, 1, 133, 1, 1, 1, 1, 228, 227, 0, 1] =
        some (.parsed ⟨0, false, false⟩ [] retryScript) := by
  have hne : decide ((Value.lam [(1, .bool)] (.coll .bool [boolExpr true]) : Value G B) = .lam [(1, .bool)] (.bools [true])) = false := by
    rw [decide_eq_false_iff_not]
    intro h
    injection h with _ h
    cases h
  have hl : { C with limit := none : EvalCtx G B }.limit = none := rfl
  have cond : ∀ (b : Bool) (f : Expr G B), decide ((Value.lam [(1, .bool)] f : Value G B) = .lam [(1, .bool)] (.bools [true])) = b →
      ∀ s : EvalSt G B, ∃ s', evalAs (eval W { C with limit := none } (n + 3)) Value.asBool
        (.bin .eq (.func [(1, .bool)] f) (.func [(1, .bool)] (.bools [true]))) s = .ok (b, s') := by
    intro b f hb s
    refine ⟨{ s with cost := s.cost + 1 + 1 + 1 + 1 }, ?_⟩
    have h : evalAs (eval W { C with limit := none } (n + 3)) Value.asBool
        (.bin .eq (.func [(1, .bool)] f) (.func [(1, .bool)] (.bools [true]))) s =
        .ok (decide ((Value.lam [(1, .bool)] f : Value G B) = .lam [(1, .bool)] (.bools [true])), { s with cost := s.cost + 1 + 1 + 1 + 1 }) :=
      rfl
    rw [h, hb]
  have hget : ∀ s : EvalSt G B, eval W { C with limit := none } (n + 3) (.op .optionGet [.getVar 0 .bool]) s = .err .notFound := by
    intro s
    rw [eval_succ_run _ _ _ _ _ hl]
    show evalOp W _ _ SOp.optionGet _ _ = _
    rw [evalOp_strict _ _ _ _ rfl, EvalM.bind_ok (a := [.none]) (s' := { s with cost := s.cost + 1 + 1 })]
    · rfl
    · unfold evalAll
      rw [EvalM.bind_ok (a := .none) (s' := { s with cost := s.cost + 1 + 1 })]
      · rfl
      · rw [eval_succ_run _ _ _ _ _ hl]
        simp only [step]
        rw [h]
        rfl
  have h1 : eval W { C with limit := none } (n + 5) retryScript { env := [], cost := 0 } = .err .notFound := by
    unfold retryScript
    rw [eval_succ_run _ _ _ _ _ hl]
    show evalOp W _ _ SOp.boolToSigmaProp _ _ = _
    rw [evalOp_strict _ _ _ _ rfl, EvalM.bind_err (e := .notFound)]
    unfold evalAll
    rw [EvalM.bind_err (e := .notFound)]
    rw [eval_succ_run _ _ _ _ _ hl]
    simp only [step, evalOp]
    obtain ⟨s', hs⟩ := cond false _ hne { env := [], cost := 0 + 1 + 1 }
    rw [EvalM.bind_ok hs]
    exact hget s'
  have h2 : (retryScript : Expr G B).prettyPrint W.mode = .ok (collapse retryScript) := by
    have hok : Shown NodeOk (retryScript : Expr G B) := by
      unfold retryScript boolExpr
      repeat' first
        | exact trivial
        | (intro h; exact absurd h (by decide))
        | (intro _; rfl)
        | refine Shown.mk ?_ ?_
        | exact shown_nil
        | refine shown_cons ?_ ?_
        | refine And.intro ?_ ?_
      intro x hx
      rw [List.mem_singleton] at hx
      subst hx
      rfl
    obtain ⟨j, hj, _⟩ := print_ok W.mode (retryScript : Expr G B) hok 0 (by simp [retryScript, nodes, nodesAll, boolExpr])
    unfold Expr.prettyPrint
    rw [bind_ok' hj]
    rfl
  have h3 : reduceOnce W C (n + 5) (collapse retryScript) [] = .ok (some (.trivial true)) := by
    have hc : (collapse retryScript : Expr G B) = .op .boolToSigmaProp [.op .ifOp [
        .bin .eq (.func [(1, .bool)] (.bools [true])) (.func [(1, .bool)] (.bools [true])), boolExpr true,
        .op .optionGet [.getVar 0 .bool]]] := rfl
    rw [hc]
    have : ∃ s', eval W { C with limit := none } (n + 5) (.op .boolToSigmaProp [.op .ifOp [
        .bin .eq (.func [(1, .bool)] (.bools [true])) (.func [(1, .bool)] (.bools [true])), boolExpr true,
        .op .optionGet [.getVar 0 .bool]]]) { env := [], cost := 0 } = .ok (.sigmaProp (.trivial true), s') := by
      obtain ⟨s', hs⟩ := cond true (.bools [true]) (by simp) { env := [], cost := 0 + 1 + 1 }
      refine ⟨{ s' with cost := s'.cost + 1 }, ?_⟩
      rw [eval_succ_run _ _ _ _ _ hl]
      show evalOp W _ _ SOp.boolToSigmaProp _ _ = _
      rw [evalOp_strict _ _ _ _ rfl, EvalM.bind_ok (a := [.bool true]) (s' := { s' with cost := s'.cost + 1 })]
      · rfl
      · unfold evalAll
        rw [EvalM.bind_ok (a := .bool true) (s' := { s' with cost := s'.cost + 1 })]
        · rfl
        · rw [eval_succ_run _ _ _ _ _ hl]
          simp only [step, evalOp]
          rw [EvalM.bind_ok hs]
          rfl
    obtain ⟨s', hs⟩ := this
    unfold reduceOnce
    rw [hs]
  refine ⟨⟨_, h1⟩, ?_, by with_unfolding_all rfl⟩
  have h4 : reduceOnce W C (n + 5) retryScript [] = .err .notFound := by unfold reduceOnce; rw [h1]
  unfold reduceToCrypto reduceAgain
  simp only [h4, h2, h3]

end Verif
