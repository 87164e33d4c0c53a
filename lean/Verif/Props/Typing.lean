import Verif.Proofs.Typing
import Verif.Props.Scope
import Verif.Props.Printer

set_option linter.unusedSimpArgs false
set_option linter.unusedVariables false

/-!
# C67, C68: what the types of a script promise

`Typed D [] e`: the script `e` follows the typing rules of `Spec/Typing.lean`; `Honours D W C`: the boxes and variables of the context
are as declared in `D`.
-/

namespace Verif
open Spec
variable {G B T : Type} [DecidableEq G] [DecidableEq B] [DecidableEq (Value G B)] (W : World G B T) (C : EvalCtx G B)

/-- The functions a script may evaluate to: those that follow the typing rules. -/
def TypedFn (D : Decls B) (args : List (BitVec 32 × SType)) (body : Expr G B) : Prop := ∃ Γ, Typed D Γ (.func args body)

theorem typed_run {D : Decls B} {bd strict : Prop} {b : Nat} (hW : Honours D W C) (hX : strict → ExactVars D C)
    (hS : bd → SmallCode D W C b) (n : Nat) (e : Expr G B) (c : Nat) (hT : Typed D [] e) :
    match eval W C n e { env := [], cost := c } with
    | .ok (v, _) => HasTy D.box (TypedFn D) v e.tpe
    | .err x => strict → x ≠ .tryExtract
    | .panic => True
    | .out => bd → n < weight b e := by
  have h := sound (W := W) (C := C) hW hX hS n [] e hT { env := [], cost := c } ⟨EnvOk.nil, fun id w hw => by cases hw⟩
  revert h
  cases eval W C n e { env := [], cost := c } with
  | ok p => exact fun h => h.1.mono fun a x ⟨_, Γ2, _, h2, _⟩ => ⟨er Γ2, h2⟩
  | err x => exact id
  | panic => exact id
  | out => exact id

/-! ## C67 -/

/-- C67 (partial): a script that follows the typing rules evaluates only to values of its type.  What is missing: scripts that read a
register at another type than it holds, and three methods, for which see the violations. -/
theorem C67_value_partial {D : Decls B} (hW : Honours D W C) (n : Nat) (e : Expr G B) (c : Nat) (hT : Typed D [] e)
    (v : Value G B) (s : EvalSt G B) (h : eval W C n e { env := [], cost := c } = .ok (v, s)) :
    HasTy D.box (TypedFn D) v e.tpe := by
  have := typed_run W C (bd := False) (strict := False) (b := 0) hW False.elim False.elim n e c hT
  rw [h] at this
  exact this

/-- C67 (partial): and if the context variables have the declared types, no operator or method is ever given an operand of the wrong
type.  What is missing: as above. -/
theorem C67_no_type_error_partial {D : Decls B} (hW : Honours D W C) (hX : ExactVars D C) (n : Nat) (e : Expr G B) (c : Nat)
    (hT : Typed D [] e) : eval W C n e { env := [], cost := c } ≠ .err .tryExtract := by
  intro h
  have := typed_run W C (bd := False) (strict := True) (b := 0) hW (fun _ => hX) False.elim n e c hT
  rw [h] at this
  exact this trivial rfl

omit [DecidableEq G] [DecidableEq B] [DecidableEq (Value G B)] in
/-- Values of the two types of scripts. -/
theorem hasTy_asProp {D : Decls B} {L : List (BitVec 32 × SType) → Expr G B → Prop} {v : Value G B} {t : SType} (h : HasTy D.box L v t)
    (ht : t = .bool ∨ t = .sigmaProp) : ∃ p, asProp v = some p := by
  rcases ht with rfl | rfl <;> cases h <;> exact ⟨_, rfl⟩

/-- C67 (partial): a script of type `SigmaProp` or `Boolean` that follows the typing rules and that the printer copies never makes
`reduce_to_crypto` panic, unless an operation of the script does: the result is the proposition the script evaluates to or the error of
its evaluation.  What is missing: as above; scripts the printer fails on (C66). -/
theorem C67_reduce_partial {D : Decls B} (hW : Honours D W C) (n : Nat) (e e' : Expr G B) (hT : Typed D [] e)
    (ht : e.tpe = .bool ∨ e.tpe = .sigmaProp) (hp : e.prettyPrint W.mode = .ok e') (hf : Shown PlainBody e) :
    (∃ v s p, eval W { C with limit := none } n e { env := [], cost := 0 } = .ok (v, s) ∧ asProp v = some p ∧
      reduceToCrypto W C n e [] = .ok p) ∨
    (∃ r, eval W { C with limit := none } n e { env := [], cost := 0 } = .err r ∧ reduceToCrypto W C n e [] = .err r) ∨
    (eval W { C with limit := none } n e { env := [], cost := 0 } = .panic ∧ reduceToCrypto W C n e [] = .panic) ∨
    (eval W { C with limit := none } n e { env := [], cost := 0 } = .out ∧ reduceToCrypto W C n e [] = .out) := by
  have hW' : Honours D W { C with limit := none } :=
    ⟨hW.selfBox, hW.inputs, hW.outputs, hW.dataInputs, hW.reg, hW.var, hW.codeVar, hW.codeReg⟩
  have h1 := C66_one_evaluation_partial W C n e e' [] hp hf
  have h2 := C67_value_partial W { C with limit := none } hW' n e 0 hT
  revert h1 h2
  cases eval W { C with limit := none } n e { env := [], cost := 0 } with
  | ok p =>
    obtain ⟨v, s⟩ := p
    intro h1 h2
    obtain ⟨p, hv⟩ := hasTy_asProp (h2 v s rfl) ht
    refine .inl ⟨v, s, p, rfl, hv, ?_⟩
    cases v <;> cases hv <;> exact h1
  | err r => exact fun h1 _ => .inr (.inl ⟨r, rfl, h1⟩)
  | panic => exact fun h1 _ => .inr (.inr (.inl ⟨rfl, h1⟩))
  | out => exact fun h1 _ => .inr (.inr (.inr ⟨rfl, h1⟩))

/-! ## C68 -/

/-- C68: a script that follows the typing rules and runs code from outside of at most `b` nodes never nests its calls deeper than it
has nodes, when each piece of code from outside counts for `b`. -/
theorem C68_depth {D : Decls B} {b : Nat} (hW : Honours D W C) (hS : SmallCode D W C b) (n : Nat) (e : Expr G B) (c : Nat)
    (hT : Typed D [] e) (hn : weight b e ≤ n) : eval W C n e { env := [], cost := c } ≠ .out := by
  intro h
  have := typed_run W C (bd := True) (strict := False) (b := b) hW False.elim (fun _ => hS) n e c hT
  rw [h] at this
  have := this trivial
  omega

/-- C68: so its evaluation ends, with the same outcome for every stack large enough. -/
theorem C68_terminates {D : Decls B} {b : Nat} (hW : Honours D W C) (hS : SmallCode D W C b) (e : Expr G B) (c : Nat)
    (hT : Typed D [] e) : ∃ r, r ≠ .out ∧ ∀ n, weight b e ≤ n → eval W C n e { env := [], cost := c } = r := by
  refine ⟨_, C68_depth W C hW hS (weight b e) e c hT (Nat.le_refl _), fun n hn => ?_⟩
  obtain ⟨k, rfl⟩ := Nat.le.dest hn
  exact eval_mono W C _ k e _ (C68_depth W C hW hS (weight b e) e c hT (Nat.le_refl _))

/-- C68: in particular a script that runs no code from outside. -/
theorem C68_closed {D : Decls B} (hW : Honours D W C) (hv : ∀ id t, ¬ D.codeVar id t) (hr : ∀ r t, ¬ D.codeReg r t) (n : Nat)
    (e : Expr G B) (c : Nat) (hT : Typed D [] e) (hn : weight 0 e ≤ n) : eval W C n e { env := [], cost := c } ≠ .out :=
  C68_depth W C hW ⟨fun id t h => absurd h (hv id t), fun r t h => absurd h (hr r t)⟩ n e c hT hn

/-- C68 (partial): the same for `reduce_to_crypto`, if the printer copies the script.  What is missing: scripts the printer fails on
(C66). -/
theorem C68_reduce_partial {D : Decls B} {b : Nat} (hW : Honours D W C) (hS : SmallCode D W C b) (n : Nat) (e e' : Expr G B)
    (hT : Typed D [] e) (hp : e.prettyPrint W.mode = .ok e') (hf : Shown PlainBody e) (hn : weight b e ≤ n) :
    reduceToCrypto W C n e [] ≠ .out := by
  have hW' : Honours D W { C with limit := none } :=
    ⟨hW.selfBox, hW.inputs, hW.outputs, hW.dataInputs, hW.reg, hW.var, hW.codeVar, hW.codeReg⟩
  have h1 := C66_one_evaluation_partial W C n e e' [] hp hf
  have h2 := C68_depth W { C with limit := none } hW' hS n e 0 hT hn
  revert h1 h2
  cases eval W { C with limit := none } n e { env := [], cost := 0 } with
  | ok p =>
    obtain ⟨v, s⟩ := p
    intro h1 _
    rw [h1]
    cases v <;> simp
  | err r => intro h1 _; rw [h1]; simp
  | panic => intro h1 _; rw [h1]; simp
  | out => exact fun _ h2 => absurd rfl h2

/-! ## A script that meets the hypotheses -/

section Demo

/-- Codecs for boxes that are the numbers 0 and 1. -/
def demoSers : Sers (Fin 3) (Fin 2) Byte :=
  { utf8 := fun _ => true, pc := toyCodec, bc := { ser := fun _ => .err, parse := Parser.fail }, tc := toyTree, H := sumHash }

/-- Two boxes, both with the `Int` 5 in R4 and the bytes of the script `3 > 2` in R5. -/
def demoWorld : World (Fin 3) (Fin 2) Byte where
  E := demoSers
  M := methodTable
  mode := .release
  box := { value := fun b => if b = 0 then 100 else 7, bytes := fun _ => .ok [1], bytesNoRef := fun _ => .ok [2], script := fun _ => .ok [3],
           creation := fun _ => (9, [4]), id := fun b => [BitVec.ofNat 8 b.val], tokens := fun _ => [],
           reg := fun _ r => match r with
             | .R4 => .ok (some ⟨.int, .int 5⟩)
             | .R5 => .ok (some ⟨.coll .byte, .collByte [145, 4, 6, 4, 4]⟩)
             | _ => .ok none }
  sha := sumHash
  gen := 1
  mul := (· + ·)
  inv := fun a => -a
  exp := fun a n => a * (Fin.ofNat 3 n)
  order := 3
  avl := fun _ _ _ => none

/-- Spending box 0 into box 1; no variables. -/
def demoCtx : EvalCtx (Fin 3) (Fin 2) where
  height := 10
  selfBox := 0
  outputs := [1, 0]
  dataInputs := []
  inputs := [0]
  preHeader := ⟨1, [], 0, 0, 10, 1, []⟩
  headers := []
  extension := []
  limit := none

/-- R4 of every box is an `Int`, R5 of the box being spent has code that gives a Boolean. -/
def demoDecls : Decls (Fin 2) where
  box := fun _ => True
  reg := fun r t => r = 4 ∧ t = .int
  var := fun _ _ => False
  codeReg := fun r t => r = 5 ∧ t = .bool
  codeVar := fun _ _ => False

/-- `{ val f = { (x2: Int) => x2 + SELF.R4[Int].get }; f(2) > 3 && OUTPUTS.exists({ (x3: Box) => x3.value > 50 }) && executeFromReg(5) }`. -/
def demoScript : Expr (Fin 3) (Fin 2) :=
  .block [.valDef 1 (.func [(2, .int)] (.bin .plus (.valUse 2 .int) (.op .optionGet [.extractReg (.op .selfBox []) 4 .int])))]
    (.bin .and
      (.bin .and (.bin .gt (.apply (.valUse 1 (.func [.int] .int [])) [intK 2]) (intK 3))
        (.op .anyOf [.op .outputs [], .func [(3, .box)] (.bin .gt (.op .extractAmount [.valUse 3 .box]) (.const ⟨.long, .long 50⟩))]))
      (.deserReg 5 .bool []))

theorem demo_code : deserialize demoWorld .bool ⟨.coll .byte, .collByte [145, 4, 6, 4, 4]⟩ = .ok (.bin .gt (intK 3) (intK 2)) := by
  with_unfolding_all rfl

theorem intK_typed {D : Decls B} (Γ : Scope) (i : BitVec 32) : Typed D Γ (intK i : Expr G B) := .const _ _ trivial

section
variable [DecidableEq (Value (Fin 3) (Fin 2))]

theorem demo_honours : Honours demoDecls demoWorld demoCtx where
  selfBox := trivial
  inputs := fun _ _ => trivial
  outputs := fun _ _ => trivial
  dataInputs := fun _ _ => trivial
  reg := by
    rintro r t ⟨rfl, rfl⟩ b _ id c h1 h2
    cases h1
    cases h2
    exact trivial
  var := fun _ _ h => h.elim
  codeVar := fun _ _ h => h.elim
  codeReg := by
    rintro r t ⟨rfl, rfl⟩ id c h1 h2
    cases h1
    cases h2
    refine ⟨by simp [WellTyped], fun e he => ?_⟩
    rw [demo_code] at he
    cases he
    exact .bin _ _ _ _ (intK_typed _ _) (intK_typed _ _) (.number .gt .int (by decide))

theorem demo_typed : Typed demoDecls [] demoScript := by
  have hgt : ∀ Γ (l r : Expr (Fin 3) (Fin 2)), Typed demoDecls Γ l → Typed demoDecls Γ r → l.tpe = .int → r.tpe = .int →
      Typed demoDecls Γ (.bin .gt l r) := fun Γ l r h1 h2 h3 h4 => .bin _ _ _ _ h1 h2 (by rw [h3, h4]; exact .number .gt .int (by decide))
  refine .block [] [(1, _)] _ ?_ ?_ ?_ trivial
  · intro pre d post h
    cases pre with
    | nil =>
      cases h
      refine .func _ _ _ (by decide) (by decide) (by simp [NoFunc]) trivial ?_
      refine .bin _ _ _ _ (.valUse _ _ _ (by simp)) (.op _ _ _ ?_ (.optionGet .int)) (.number .plus .int (by decide))
      simp only [List.mem_cons, List.not_mem_nil, or_false, forall_eq]
      exact .extractReg _ _ _ _ (.op _ _ _ (by simp) .selfBox) rfl ⟨rfl, rfl⟩
    | cons x pre => cases pre <;> cases h
  · intro pre d post h
    cases pre with
    | nil => cases h; simp [Scope.define]
    | cons x pre => cases pre <;> cases h
  · refine .bin _ _ _ _ (.bin _ _ _ _ (hgt _ _ _ (.apply _ _ _ .int (.valUse _ _ _ ?_) ?_ rfl) (intK_typed _ _) rfl rfl) (.op _ _ _ ?_ (.anyOf .box))
      (.logic .and (by decide))) (.deserReg _ _ _ _ (by simp) ⟨rfl, rfl⟩) (.logic .and (by decide))
    · exact List.mem_cons_self ..
    · simp only [List.mem_cons, List.not_mem_nil, or_false, forall_eq]
      exact intK_typed _ _
    · simp only [List.mem_cons, List.not_mem_nil, or_false, forall_eq_or_imp, forall_eq]
      refine ⟨.op _ _ _ (by simp) .outputs, .func _ _ _ (by decide) ?_ (by simp [NoFunc]) trivial ?_⟩
      · simp [Scope.define]
      · refine .bin _ _ _ _ (.op _ _ _ ?_ .extractAmount) (.const _ _ trivial) (.number .gt .long (by decide))
        simp only [List.mem_cons, List.not_mem_nil, or_false, forall_eq]
        exact .valUse _ _ _ (by simp)

theorem demo_small : SmallCode demoDecls demoWorld demoCtx 3 := by
  refine ⟨fun _ _ h => h.elim, ?_⟩
  rintro r t ⟨rfl, rfl⟩ id c h1 h2 e he
  cases h1
  cases h2
  rw [demo_code] at he
  cases he
  exact Nat.le_refl _

example : weight 3 demoScript = 26 := rfl

/-- The script needs no more than 26 nested calls, and evaluates to a Boolean. -/
example (n : Nat) (hn : 26 ≤ n) : (∃ b s, eval demoWorld demoCtx n demoScript { env := [], cost := 0 } = .ok (.bool b, s)) ∨
    (∃ r, r ≠ .tryExtract ∧ eval demoWorld demoCtx n demoScript { env := [], cost := 0 } = .err r) ∨
    eval demoWorld demoCtx n demoScript { env := [], cost := 0 } = .panic := by
  have h1 := C67_value_partial demoWorld demoCtx demo_honours n demoScript 0 demo_typed
  have h2 := C67_no_type_error_partial demoWorld demoCtx demo_honours (fun _ _ h => h.elim) n demoScript 0 demo_typed
  have h3 := C68_depth demoWorld demoCtx demo_honours demo_small n demoScript 0 demo_typed hn
  revert h1 h2 h3
  cases eval demoWorld demoCtx n demoScript { env := [], cost := 0 } with
  | ok p =>
    intro h1 _ _
    have := h1 p.1 p.2 rfl
    obtain ⟨v, s⟩ := p
    cases this with
    | bool b => exact .inl ⟨b, s, rfl⟩
  | err r => exact fun _ h2 _ => .inr (.inl ⟨r, fun h => h2 (h ▸ rfl), rfl⟩)
  | panic => exact fun _ _ _ => .inr (.inr rfl)
  | out => exact fun _ _ h3 => absurd rfl h3

/-- It prints, and has no collection of Boolean constants. -/
example : reduceToCrypto demoWorld demoCtx 26 demoScript [] ≠ .out :=
  C68_reduce_partial demoWorld demoCtx demo_honours demo_small 26 demoScript demoScript demo_typed (by rfl)
    (by
      unfold demoScript intK
      repeat' first
        | exact trivial
        | exact shown_nil
        | refine Shown.mk ?_ ?_
        | refine shown_cons ?_ ?_
        | constructor) (Nat.le_refl _)

end
end Demo

/-! ## Violations -/

/-- `SELF.R4[SigmaProp].get`. -/
def regScript : Expr G B := .op .optionGet [.extractReg (.op .selfBox []) 4 .sigmaProp]

/-- C67 fails for registers: `SELF.R4[SigmaProp].get` is accepted as a script, evaluates to an `Int` if R4 of the box holds one, and then
`reduce_to_crypto` panics. -/
theorem C67_violation_register (n : Nat) (i : BitVec 32) (hR : W.box.reg C.selfBox .R4 = .ok (some ⟨.int, .int i⟩)) :
    (regScript : Expr G B).tpe = .sigmaProp ∧
    (∃ s, eval W { C with limit := none } (n + 3) regScript { env := [], cost := 0 } = .ok (.int i, s)) ∧
    reduceToCrypto W C (n + 3) regScript [] = .panic ∧
    ETree.parseBytes toySers noMethods [0, 228, 198, 167, 4, 8] = some (.parsed ⟨0, false, false⟩ [] regScript) := by
  have hr : Value.regOption W.box C.selfBox 4 = .ok (.some (.int i)) := by
    unfold Value.regOption
    show (do let c ← Res.ofOutcome .notFound (W.box.reg C.selfBox .R4); pure (Value.ofOption (c.map fun c => Value.ofLiteral c.v)) : Res _) = _
    rw [hR]
    rfl
  have h : eval W { C with limit := none } (n + 3) regScript { env := [], cost := 0 } = .ok (.int i, { env := [], cost := 3 }) := by
    have h1 : eval W { C with limit := none } (n + 2) (.extractReg (.op .selfBox []) 4 .sigmaProp) { env := [], cost := 1 } =
        .ok (.some (.int i), { env := [], cost := 3 }) := by
      show EvalM.lift (Value.regOption W.box C.selfBox 4) { env := [], cost := 3 } = _
      rw [hr]
      rfl
    unfold regScript
    rw [eval_succ_run W _ (n + 2) _ _ rfl]
    show evalOp W _ _ SOp.optionGet _ _ = _
    rw [evalOp_strict _ _ _ _ rfl]
    unfold evalAll
    rw [EvalM.bind_ok (a := [.some (.int i)]) (s' := { env := [], cost := 3 })]
    · rfl
    · rw [EvalM.bind_ok h1]
      rfl
  have h1 : reduceOnce W C (n + 3) regScript [] = .ok none := by unfold reduceOnce; rw [h]
  have h2 : (regScript : Expr G B).prettyPrint W.mode = .ok regScript := rfl
  refine ⟨rfl, ⟨_, h⟩, ?_, by with_unfolding_all rfl⟩
  unfold reduceToCrypto reduceAgain
  simp only [h1, h2]

/-- `CONTEXT.headers(0).stateRoot`. -/
def stateRootScript : Expr G B :=
  .property 104 5 (.plain [.header] .avlTree)
    (.byIndex (.property 101 2 (.plain [.context] (.coll .header)) (.op .context [])) (intK 0) [])

/-- C67 fails for `Header.stateRoot`: its type is `AvlTree`, its value a collection of bytes. -/
theorem C67_violation_state_root (n : Nat) (h : Header G) (l : List (Header G)) (hC : C.headers = h :: l) :
    Expr.specialize methodTable 104 5 [.header] = some (.plain [.header] .avlTree) ∧
    Expr.specialize methodTable 101 2 [.context] = some (.plain [.context] (.coll .header)) ∧
    (stateRootScript : Expr G B).tpe = .avlTree ∧
    ∃ s, eval W { C with limit := none } (n + 4) stateRootScript { env := [], cost := 0 } = .ok (.collByte h.stateRoot, s) := by
  obtain ⟨a, b, c, d, e, f, g, i, j⟩ := C
  subst hC
  exact ⟨by with_unfolding_all rfl, by with_unfolding_all rfl, rfl, _, rfl⟩

/-- `SELF.getReg(4).get`, with the register index as a byte. -/
def getRegScript : Expr G B :=
  .op .optionGet [.method 99 7 (.plain [.box, .byte] (.option SType.varT)) (.op .selfBox []) [.const ⟨.byte, .byte 4⟩]]

/-- C67 fails for `Box.getReg`: the type of the result is a type variable, whatever the register holds. -/
theorem C67_violation_get_reg (n : Nat) (i : BitVec 32) (hR : W.box.reg C.selfBox .R4 = .ok (some ⟨.int, .int i⟩)) :
    Expr.specialize methodTable 99 7 [.box, .byte] = some (.plain [.box, .byte] (.option SType.varT)) ∧
    (getRegScript : Expr G B).tpe = SType.varT ∧
    ∃ s, eval W { C with limit := none } (n + 3) getRegScript { env := [], cost := 0 } = .ok (.int i, s) := by
  have hr : Value.regOption W.box C.selfBox 4 = .ok (.some (.int i)) := by
    unfold Value.regOption
    show (do let c ← Res.ofOutcome .notFound (W.box.reg C.selfBox .R4); pure (Value.ofOption (c.map fun c => Value.ofLiteral c.v)) : Res _) = _
    rw [hR]
    rfl
  have h1 : eval W { C with limit := none } (n + 2) (.method 99 7 (.plain [.box, .byte] (.option SType.varT)) (.op .selfBox [])
      [.const ⟨.byte, .byte 4⟩]) { env := [], cost := 1 } = .ok (.some (.int i), { env := [], cost := 4 }) := by
    show EvalM.lift (Value.regOption W.box C.selfBox 4) { env := [], cost := 4 } = _
    rw [hr]
    rfl
  refine ⟨by with_unfolding_all rfl, rfl, { env := [], cost := 4 }, ?_⟩
  unfold getRegScript
  rw [eval_succ_run W _ (n + 2) _ _ rfl]
  show evalOp W _ _ SOp.optionGet _ _ = _
  rw [evalOp_strict _ _ _ _ rfl]
  unfold evalAll
  rw [EvalM.bind_ok (a := [.some (.int i)]) (s' := { env := [], cost := 4 })]
  · rfl
  · rw [EvalM.bind_ok h1]
    rfl

/-- `INPUTS.flatMap({ (x1: Box) => x1.id })`. -/
def flatMapScript : Expr G B :=
  .method 12 15 (.plain [.coll .box, .func [.box] (.coll .byte) []] (.coll .byte)) (.op .inputs [])
    [.func [(1, .box)] (.op .extractId [.valUse 1 .box])]

/-- C67 fails for `Coll.flatMap`: the ids of the inputs cannot be joined, and with no inputs the empty result has elements of type
`Coll[Byte]` instead of bytes. -/
theorem C67_violation_flat_map (n : Nat) :
    Expr.specialize methodTable 12 15 [.coll .box, .func [.box] (.coll .byte) []] =
      some (.plain [.coll .box, .func [.box] (.coll .byte) []] (.coll .byte)) ∧
    (flatMapScript : Expr G B).tpe = .coll .byte ∧
    (C.inputs = [] → ∃ s, eval W { C with limit := none } (n + 4) flatMapScript { env := [], cost := 0 } = .ok (.coll (.coll .byte) [], s)) ∧
    (∀ b, C.inputs = [b] → eval W { C with limit := none } (n + 4) flatMapScript { env := [], cost := 0 } = .err .tryExtract) := by
  obtain ⟨c1, c2, c3, c4, c5, c6, c7, c8, c9⟩ := C
  refine ⟨by with_unfolding_all rfl, rfl, fun h => ?_, fun b h => ?_⟩
  · cases h; exact ⟨_, rfl⟩
  · cases h; rfl

/-- The violations of C67 occur in the example world: R4 holds an `Int`. -/
example [DecidableEq (Value (Fin 3) (Fin 2))] (n : Nat) : reduceToCrypto demoWorld demoCtx (n + 3) regScript [] = .panic :=
  (C67_violation_register demoWorld demoCtx n 5 rfl).2.2.1

/-- Methods that scripts may name but that have no evaluation function: `CONTEXT.{INPUTS, OUTPUTS, HEIGHT, SELF, minerPubKey}`. -/
theorem C67_violation_unimplemented (n : Nat) (m : Byte) (hm : m ∈ ([4, 5, 6, 7, 10] : List Byte)) :
    ∃ sig, Expr.specialize methodTable 101 m [.context] = some sig ∧
      eval W { C with limit := none } (n + 2) (.property 101 m sig (.op .context [])) { env := [], cost := 0 } = .err .notFound := by
  simp only [List.mem_cons, List.not_mem_nil, or_false] at hm
  rcases hm with rfl | rfl | rfl | rfl | rfl
  · exact ⟨.plain [.context] (.coll .box), by with_unfolding_all rfl, rfl⟩
  · exact ⟨.plain [.context] (.coll .box), by with_unfolding_all rfl, rfl⟩
  · exact ⟨.plain [.context] .int, by with_unfolding_all rfl, rfl⟩
  · exact ⟨.plain [.context] .box, by with_unfolding_all rfl, rfl⟩
  · exact ⟨.plain [.context] (.coll .byte), by with_unfolding_all rfl, rfl⟩

/-- `executeFromVar[SigmaProp](1)`. -/
def selfCode : Expr G B := .deserCtx .sigmaProp 1

/-- C68 (and C53) fail for code from outside: the script `executeFromVar[SigmaProp](1)` follows the typing rules; if the variable holds
the bytes of the very same script, it follows them too, and the evaluation overflows the stack whatever its size. -/
theorem C68_violation_deserialize (hv : C.extension.get 1 = some ⟨.coll .byte, .collByte [212, 8, 1]⟩) :
    (∀ n, reduceToCrypto W C n selfCode [] = .out) ∧
    deserialize W .sigmaProp (⟨.coll .byte, .collByte [212, 8, 1]⟩ : Constant G B) = .ok selfCode ∧
    (∀ D : Decls B, D.codeVar 1 .sigmaProp → Typed D [] (selfCode : Expr G B)) ∧
    ETree.parseBytes toySers noMethods [0, 212, 8, 1] = some (.parsed ⟨0, false, false⟩ [] selfCode) := by
  have hd : deserialize W .sigmaProp (⟨.coll .byte, .collByte [212, 8, 1]⟩ : Constant G B) = .ok selfCode := by with_unfolding_all rfl
  have hout : ∀ n s, eval W { C with limit := none } n selfCode s = .out := by
    intro n
    induction n with
    | zero => exact fun _ => rfl
    | succ n ih =>
      intro s
      rw [eval_succ_run W _ n _ _ rfl]
      show (EvalM.lift (contextExpr W _ .sigmaProp 1) >>= fun e => eval W { C with limit := none } n e) _ = _
      have : contextExpr W { C with limit := none } .sigmaProp 1 = .ok selfCode := by
        unfold contextExpr
        rw [hv]
        exact hd
      rw [this]
      exact ih _
  refine ⟨fun n => ?_, hd, fun D h => .deserCtx _ _ _ h, by with_unfolding_all rfl⟩
  unfold reduceToCrypto reduceOnce
  rw [hout]

end Verif
