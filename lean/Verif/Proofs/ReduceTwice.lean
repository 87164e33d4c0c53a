import Verif.Proofs.Printer

set_option linter.unusedSimpArgs false
set_option linter.unusedVariables false

/-!
# The rebuilt expression evaluates like the given one
-/

namespace Verif
open Spec Expr
variable {G B T α β : Type}

/-- Unless the budget of nested calls of the first is too small, the two routines act alike (costs aside). -/
def Ref (m m' : EvalM G B α) : Prop := ∀ s t, SameBindings s.env t.env → m s = .out ∨ SameRes none (m s) (m' t)

theorem Ref.of_same {Q : α → Prop} {m m' : EvalM G B α} (h : Same none Q m m') : Ref m m' :=
  fun s t hst => .inr (h.1 s t ⟨hst, .inl rfl⟩)

theorem Ref.bind {m m' : EvalM G B α} {f f' : α → EvalM G B β} (h : Ref m m') (h' : ∀ a, Ref (f a) (f' a)) :
    Ref (m >>= f) (m' >>= f') := by
  intro s t hst
  rcases h s t hst with h | h
  · exact .inl (EvalM.bind_out h)
  cases hm : m s with
  | ok r =>
    obtain ⟨a, s1⟩ := r
    cases hm' : m' t with
    | ok r' =>
      obtain ⟨a', t1⟩ := r'
      rw [hm, hm'] at h
      obtain ⟨h1, h2⟩ := h
      dsimp only at h1 h2
      subst h1
      rw [EvalM.bind_ok hm, EvalM.bind_ok hm']
      exact h' a s1 t1 h2.1
    | _ => rw [hm, hm'] at h; exact h.elim
  | err e =>
    cases hm' : m' t with
    | err e' => rw [hm, hm'] at h; rw [EvalM.bind_err hm, EvalM.bind_err hm']; exact .inr h
    | _ => rw [hm, hm'] at h; exact h.elim
  | panic =>
    cases hm' : m' t with
    | panic => rw [EvalM.bind_panic hm, EvalM.bind_panic hm']; exact .inr trivial
    | _ => rw [hm, hm'] at h; exact h.elim
  | out => exact .inl (EvalM.bind_out hm)

theorem Ref.lift (r : Res α) : Ref (EvalM.lift r : EvalM G B α) (EvalM.lift r) := by
  intro s t hst
  cases r with
  | ok a => exact .inr ⟨rfl, hst, .inl rfl⟩
  | err e => exact .inr rfl
  | panic => exact .inr trivial
  | out => exact .inr trivial

theorem Ref.pure (a : α) : Ref (Pure.pure a : EvalM G B α) (Pure.pure a) := Ref.lift (.ok a)
theorem Ref.fail (e : EvalErr) : Ref (EvalM.fail e : EvalM G B α) (EvalM.fail e) := Ref.lift (.err e)
theorem Ref.addCost : Ref (Verif.addCost none : EvalM G B Unit) (Verif.addCost none) := fun s t hst => .inr ⟨rfl, hst, .inl rfl⟩

/-- A routine that only changes the environment. -/
theorem Ref.env (f : FMap (BitVec 32) (Value G B) → α) (g : FMap (BitVec 32) (Value G B) → FMap (BitVec 32) (Value G B))
    (hf : ∀ a b, SameBindings a b → f a = f b) (hg : ∀ a b, SameBindings a b → SameBindings (g a) (g b)) :
    Ref (fun s => .ok (f s.env, { s with env := g s.env }) : EvalM G B α)
      (fun s => .ok (f s.env, { s with env := g s.env }) : EvalM G B α) := Ref.of_same (Same.env f g hf hg)

/-- The two expressions evaluate alike. -/
def RefE (ev : Ev G B) (e e' : Expr G B) : Prop := Ref (ev e) (ev e')

variable {ev : Ev G B}

theorem Ref.evalAs {f : Value G B → Res α} {e e' : Expr G B} (h : RefE ev e e') : Ref (Verif.evalAs ev f e) (Verif.evalAs ev f e') :=
  h.bind fun v => Ref.lift _

theorem Ref.evalAll : ∀ (l : List (Expr G B)), (∀ e ∈ l, RefE ev e (collapse e)) →
    Ref (Verif.evalAll ev l) (Verif.evalAll ev (collapseAll l))
  | [], _ => by simp only [collapseAll]; exact Ref.pure _
  | e :: l, h => by
    simp only [collapseAll]
    exact (h e (by simp)).bind fun v => (Ref.evalAll l fun x hx => h x (by simp [hx])).bind fun vs => Ref.pure _

theorem Ref.blockTop : ∀ (l : List (Expr G B)), (∀ id rhs, .valDef id rhs ∈ l → RefE ev rhs (collapse rhs)) →
    Ref (Verif.blockTop ev l) (Verif.blockTop ev (collapseAll l))
  | [], _ => by simp only [collapseAll]; exact Ref.pure _
  | e :: l, h => by
    simp only [collapseAll]
    cases e with
    | valDef id rhs =>
      simp only [collapse, Verif.blockTop]
      exact (h id rhs (by simp)).bind fun v => (Ref.env (fun _ => ()) (fun env => env.insert id v) (fun _ _ _ => rfl)
        fun _ _ h => SameBindings.insert h id v).bind fun _ => Ref.blockTop l fun i r hx => h i r (by simp [hx])
    | coll t items =>
      simp only [collapse]
      split <;> simp only [Verif.blockTop] <;> exact Ref.fail _
    | _ => simp only [collapse, Verif.blockTop]; exact Ref.fail _

theorem Ref.blockInner : ∀ (l : List (Expr G B)) (sv : Saved G B), (∀ id rhs, .valDef id rhs ∈ l → RefE ev rhs (collapse rhs)) →
    Ref (Verif.blockInner ev l sv) (Verif.blockInner ev (collapseAll l) sv)
  | [], sv, _ => by simp only [collapseAll]; exact Ref.pure _
  | e :: l, sv, h => by
    simp only [collapseAll]
    cases e with
    | valDef id rhs =>
      simp only [collapse, Verif.blockInner]
      exact (h id rhs (by simp)).bind fun v => (Ref.env (fun env => Saved.note sv env id) (fun env => env.insert id v)
        (fun _ _ h => SameBindings.note h _ id) fun _ _ h => SameBindings.insert h id v).bind fun sv' =>
          Ref.blockInner l sv' fun i r hx => h i r (by simp [hx])
    | coll t items =>
      simp only [collapse]
      split <;> simp only [Verif.blockInner] <;> exact Ref.fail _
    | _ => simp only [collapse, Verif.blockInner]; exact Ref.fail _

theorem Ref.evalBlock (l : List (Expr G B)) (r : Expr G B) (h : ∀ id rhs, .valDef id rhs ∈ l → RefE ev rhs (collapse rhs))
    (hr : RefE ev r (collapse r)) : Ref (Verif.evalBlock ev l r) (Verif.evalBlock ev (collapseAll l) (collapse r)) := by
  unfold Verif.evalBlock
  refine Ref.bind (Ref.env (fun env => env.isEmpty) (fun env => env) (fun _ _ h => SameBindings.isEmpty h)
    fun _ _ h => h) fun top => ?_
  split
  · exact (Ref.blockTop l h).bind fun _ => hr
  · exact (Ref.blockInner l _ h).bind fun sv => Ref.bind hr fun v =>
      (Ref.env (fun _ => ()) (fun env => sv.restore env) (fun _ _ _ => rfl) fun _ _ h => SameBindings.restore h sv).bind
        fun _ => .pure _

variable [DecidableEq G] [DecidableEq B] [DecidableEq (Value G B)] (W : World G B T) (C : EvalCtx G B)

/-- Evaluating Boolean constants. -/
theorem evalAll_bools (hl : C.limit = none) (n : Nat) : ∀ (items : List (Expr G B)) (l : List Bool), boolValues items = some l →
    ∀ s : EvalSt G B, evalAll (eval W C n) items s = .out ∨ ∃ s', evalAll (eval W C n) items s = .ok (l.map .bool, s') ∧ s'.env = s.env
  | [], l, h, s => by cases h; exact .inr ⟨s, rfl, rfl⟩
  | e :: items, l, h, s => by
    cases n with
    | zero => exact .inl rfl
    | succ n =>
      match e, h with
      | .const ⟨t, .bool b⟩, h =>
        simp only [boolValues, Option.map_eq_some_iff] at h
        obtain ⟨l', hl', rfl⟩ := h
        have h1 : eval W C (n + 1) (.const ⟨t, .bool b⟩) s = .ok (.bool b, { s with cost := s.cost + 1 }) := by
          rw [eval_succ_run _ _ _ _ _ hl]; rfl
        rcases evalAll_bools hl (n + 1) items l' hl' { s with cost := s.cost + 1 } with h2 | ⟨s', h2, h3⟩
        · left
          unfold evalAll
          rw [EvalM.bind_ok h1]
          exact EvalM.bind_out h2
        · right
          refine ⟨s', ?_, h3⟩
          unfold evalAll
          rw [EvalM.bind_ok h1, EvalM.bind_ok h2]
          rfl

theorem ref_bin (hl : C.limit = none) (n : Nat) (k : BinK) (l r : Expr G B) (h1 : RefE (eval W C n) l (collapse l))
    (h2 : RefE (eval W C n) r (collapse r)) :
    Ref (evalBin C (eval W C n) k l r) (evalBin C (eval W C n) k (collapse l) (collapse r)) := by
  unfold evalBin
  rw [hl]
  refine Ref.addCost.bind fun _ => Ref.bind h1 fun lv => ?_
  split
  · refine Ref.bind (.lift _) fun b => ?_
    split
    · exact Ref.bind (Ref.evalAs h2) fun _ => .pure _
    · exact .pure _
  · refine Ref.bind (.lift _) fun b => ?_
    split
    · exact .pure _
    · exact Ref.bind (Ref.evalAs h2) fun _ => .pure _
  · exact Ref.bind (.lift _) fun b => Ref.bind (Ref.evalAs h2) fun _ => .pure _
  · exact Ref.bind h2 fun _ => .pure _
  · exact Ref.bind h2 fun _ => .pure _
  · exact Ref.bind h2 fun _ => .lift _
  · exact Ref.bind h2 fun _ => .lift _
  · exact Ref.bind h2 fun _ => .lift _
  · exact Ref.bind h2 fun _ => .lift _
  · split
    · exact Ref.evalAs h2
    · exact .fail _

theorem ref_special (hl : C.limit = none) (n : Nat) (o : SOp) (ho : o.special = true) (args : List (Expr G B))
    (h : ∀ c ∈ args, RefE (eval W C n) c (collapse c)) :
    Ref (evalOp W C (eval W C n) o args) (evalOp W C (eval W C n) o (collapseAll args)) := by
  have rel : (sameLogic W C).Rel (eval W C n) (eval W C n) := fun e _ => eval_same W C n e
  have of : ∀ {α : Type} {Q : α → Prop} {m m' : EvalM G B α}, (sameLogic W C).P Q m m' → Ref m m' := by
    intro α Q m m' h
    have h : Same C.limit Q m m' := h
    rw [hl] at h
    exact Ref.of_same h
  have htriv : ∀ v : Value G B, (sameLogic W C).V v := fun v => allLam_true v
  have rest := (Ref.evalAll args h).bind fun vs => Ref.lift (Value.strictOp W C o vs)
  match o, args with
  | .ifOp, [c, t, e] =>
    simp only [collapseAll, evalOp]
    refine Ref.bind (Ref.evalAs (h c (by simp))) fun b => ?_
    split
    · exact h t (by simp)
    · exact h e (by simp)
  | .map, [input, mapper] =>
    simp only [collapseAll, evalOp, tpe_collapse]
    refine Ref.bind (h input (by simp)) fun iv => Ref.bind (h mapper (by simp)) fun f => ?_
    split
    · exact Ref.bind (.lift _) fun items => Ref.bind
        (of (EvLogic.callEach (K := sameLogic W C) rel (htriv _) _ fun v _ => htriv v)) fun vs => .lift _
    · exact .fail _
  | .filter, [input, cond] =>
    simp only [collapseAll, evalOp, tpe_collapse]
    exact Ref.bind (h input (by simp)) fun iv => Ref.bind (h cond (by simp)) fun f => Ref.bind (.lift _) fun items => Ref.bind
        (of (EvLogic.callConds (K := sameLogic W C) rel (htriv _) _ fun v _ => htriv v)) fun vs => .lift _
  | .anyOf, [input, cond] =>
    simp only [collapseAll, evalOp, tpe_collapse]
    exact Ref.bind (h input (by simp)) fun iv => Ref.bind (h cond (by simp)) fun f => Ref.bind (.lift _) fun items => Ref.bind
        (of (EvLogic.callAny (K := sameLogic W C) rel (htriv _) _ fun v _ => htriv v)) fun vs => .pure _
  | .forAll, [input, cond] =>
    simp only [collapseAll, evalOp, tpe_collapse]
    exact Ref.bind (h input (by simp)) fun iv => Ref.bind (h cond (by simp)) fun f => Ref.bind (.lift _) fun items => Ref.bind
        (of (EvLogic.callForAll (K := sameLogic W C) rel (htriv _) _ fun v _ => htriv v)) fun vs => .pure _
  | .fold, [input, zero, fo] =>
    simp only [collapseAll, evalOp]
    exact Ref.bind (h input (by simp)) fun iv => Ref.bind (h zero (by simp)) fun z => Ref.bind (h fo (by simp)) fun f =>
      Ref.bind (.lift _) fun c => of (EvLogic.callFold (K := sameLogic W C) rel (htriv _) _ _ (htriv _) fun v _ => htriv v)
  | .treeLookup, [tree, key, proof] =>
    simp only [collapseAll, evalOp]
    exact Ref.bind (Ref.evalAs (h tree (by simp))) fun t => Ref.bind (Ref.evalAs (h key (by simp))) fun k =>
      Ref.bind (Ref.evalAs (h proof (by simp))) fun p => Ref.bind (.lift _) fun r => .pure _
  | .createProveDhTuple, [eg, eh, eu, e] =>
    simp only [collapseAll, evalOp]
    exact Ref.bind (Ref.evalAs (h eg (by simp))) fun t => Ref.bind (Ref.evalAs (h eh (by simp))) fun k =>
      Ref.bind (Ref.evalAs (h eu (by simp))) fun p => Ref.bind (Ref.evalAs (h e (by simp))) fun r => .pure _
  | .ifOp, [] | .ifOp, [_] | .ifOp, [_, _] | .ifOp, _ :: _ :: _ :: _ :: _
  | .map, [] | .map, [_] | .map, _ :: _ :: _ :: _
  | .filter, [] | .filter, [_] | .filter, _ :: _ :: _ :: _
  | .anyOf, [] | .anyOf, [_] | .anyOf, _ :: _ :: _ :: _
  | .forAll, [] | .forAll, [_] | .forAll, _ :: _ :: _ :: _
  | .fold, [] | .fold, [_] | .fold, [_, _] | .fold, _ :: _ :: _ :: _ :: _
  | .treeLookup, [] | .treeLookup, [_] | .treeLookup, [_, _] | .treeLookup, _ :: _ :: _ :: _ :: _
  | .createProveDhTuple, [] | .createProveDhTuple, [_] | .createProveDhTuple, [_, _] | .createProveDhTuple, [_, _, _]
  | .createProveDhTuple, _ :: _ :: _ :: _ :: _ :: _ =>
    simp only [collapseAll] at rest ⊢
    simp only [evalOp]
    exact rest

theorem eval_collapse (hl : C.limit = none) : ∀ (n : Nat) (e : Expr G B), Shown PlainBody e →
    RefE (eval W C n) e (collapse e)
  | 0, e, _ => fun s t _ => .inl rfl
  | n + 1, e, he => by
    have ih : ∀ c ∈ visited e, RefE (eval W C n) c (collapse c) := fun c hc => eval_collapse hl n c (he.child hc)
    have same : ∀ c, RefE (eval W C n) c c := fun c => Ref.of_same (by have := eval_same W C n c; rw [hl] at this; exact this)
    have rel : (sameLogic W C).Rel (eval W C n) (eval W C n) := fun e _ => eval_same W C n e
    have of : ∀ {α : Type} {Q : α → Prop} {m m' : EvalM G B α}, (sameLogic W C).P Q m m' → Ref m m' := by
      intro α Q m m' h
      have h : Same C.limit Q m m' := h
      rw [hl] at h
      exact Ref.of_same h
    have htriv : ∀ v : Value G B, (sameLogic W C).V v := fun v => allLam_true v
    unfold RefE
    rw [eval_succ, eval_succ, hl]
    refine Ref.addCost.bind fun _ => ?_
    cases e with
    | const c => simp only [collapse, step]; exact .pure _
    | placeholder id t => simp only [collapse, step]; exact .fail _
    | valUse id t =>
      simp only [collapse, step]
      exact of ((sameLogic W C).useVar id t trivial)
    | bools l => simp only [collapse, step]; exact .pure _
    | op o args =>
      simp only [collapse, step]
      have ih' : ∀ c ∈ args, RefE (eval W C n) c (collapse c) := ih
      by_cases ho : o.special = true
      · exact ref_special W C hl n o ho args ih'
      · rw [evalOp_strict _ _ _ _ (by simpa using ho), evalOp_strict _ _ _ _ (by simpa using ho)]
        exact (Ref.evalAll args ih').bind fun vs => .lift _
    | bin k l r =>
      simp only [collapse, step]
      exact ref_bin W C hl n k l r (ih l (by simp [visited])) (ih r (by simp [visited]))
    | cast u x t => simp only [collapse, step]; exact Ref.bind (ih x (by simp [visited])) fun v => .lift _
    | extractReg x r t => simp only [collapse, step]; exact Ref.bind (Ref.evalAs (ih x (by simp [visited]))) fun v => .lift _
    | selectField x i =>
      simp only [collapse, step]
      refine Ref.bind (ih x (by simp [visited])) fun v => ?_
      split
      · exact .lift _
      · exact .fail _
    | getVar id t =>
      simp only [collapse, step]
      split
      · exact .pure _
      · split
        · exact .pure _
        · exact .fail _
    | deserCtx t id => simp only [collapse, step]; exact Ref.bind (.lift _) fun e => same e
    | deserReg r t d => simp only [collapse, step]; exact Ref.bind (.lift _) fun e => same e
    | byIndex x i d =>
      simp only [collapse, step]
      refine Ref.bind (ih x (by simp [visited])) fun iv => Ref.bind (ih i (by simp [visited])) fun ix => Ref.bind (.lift _) fun c => ?_
      split
      · exact Ref.bind (.lift _) fun _ => .lift _
      · exact Ref.bind (same _) fun _ => Ref.bind (.lift _) fun _ => .pure _
    | createAvl f d k v =>
      simp only [collapse, step]
      refine Ref.bind (Ref.evalAs (same f)) fun _ => Ref.bind (Ref.evalAs (ih d (by simp [visited]))) fun _ =>
        Ref.bind (Ref.evalAs (ih k (by simp [visited]))) fun _ => ?_
      split
      · exact .lift _
      · exact Ref.bind (Ref.evalAs (same _)) fun _ => .lift _
    | coll t items =>
      simp only [collapse]
      split
      · next l hb =>
        intro s u hsu
        simp only [step]
        rcases evalAll_bools W C hl n items l hb s with h | ⟨s', h, hs⟩
        · exact .inl (EvalM.bind_out h)
        · right
          rw [EvalM.bind_ok h]
          refine ⟨rfl, ?_, .inl rfl⟩
          show SameBindings s'.env u.env
          rw [hs]; exact hsu
      · simp only [step]
        exact (Ref.evalAll items ih).bind fun vs => .lift _
    | tuple items => simp only [collapse, step]; exact (Ref.evalAll items ih).bind fun vs => .pure _
    | sigma u items =>
      simp only [collapse, step]
      exact (Ref.evalAll items ih).bind fun vs => Ref.bind (.lift _) fun _ => Ref.bind (.lift _) fun _ => .pure _
    | func args body =>
      simp only [collapse, step]
      have : collapse body = body := he.here
      rw [this]
      exact .pure _
    | apply f args =>
      simp only [collapse, step]
      exact Ref.bind (ih f (by simp [visited])) fun fv => (Ref.evalAll args fun c hc => ih c (by simp [visited, hc])).bind fun vs =>
        of (EvLogic.applyLam (K := sameLogic W C) rel (htriv _) fun v _ => htriv v)
    | block items r =>
      simp only [collapse, step]
      refine Ref.evalBlock items r (fun id rhs hm => ?_) (ih r (by simp [visited]))
      have h1 : Shown PlainBody (.valDef id rhs) := he.child (by simp [visited, hm])
      exact eval_collapse hl n rhs (h1.child (by simp [visited]))
    | valDef id rhs => simp only [collapse, step]; exact .fail _
    | method t m sig obj args =>
      simp only [collapse, step]
      exact Ref.bind (ih obj (by simp [visited])) fun o => (Ref.evalAll args fun c hc => ih c (by simp [visited, hc])).bind fun vs =>
        of (EvLogic.callMethod (K := sameLogic W C) rel (htriv _) fun v _ => htriv v)
    | property t m sig obj =>
      simp only [collapse, step]
      exact Ref.bind (ih obj (by simp [visited])) fun o => of (EvLogic.callMethod (K := sameLogic W C) rel (htriv _) (by simp))

/-- One evaluation and the same evaluation of the rebuilt expression. -/
theorem reduceOnce_collapse (n : Nat) (e : Expr G B) (env : FMap (BitVec 32) (Value G B)) (h : Shown PlainBody e) :
    reduceOnce W C n e env = .out ∨ reduceOnce W C n (collapse e) env = reduceOnce W C n e env := by
  unfold reduceOnce
  rcases eval_collapse W { C with limit := none } rfl n e h { env := env, cost := 0 } { env := env, cost := 0 } (fun _ => rfl) with h | h
  · left; rw [h]
  · right
    revert h
    cases eval W { C with limit := none } n e { env := env, cost := 0 } with
    | ok r =>
      cases eval W { C with limit := none } n (collapse e) { env := env, cost := 0 } with
      | ok r' =>
        obtain ⟨v, s⟩ := r
        obtain ⟨v', s'⟩ := r'
        rintro ⟨h, _⟩
        dsimp only at h
        subst h
        cases v <;> rfl
      | _ => intro h; exact h.elim
    | err r =>
      cases eval W { C with limit := none } n (collapse e) { env := env, cost := 0 } with
      | err r' => intro h; have h : r = r' := h; rw [h]
      | _ => intro h; exact h.elim
    | panic =>
      cases eval W { C with limit := none } n (collapse e) { env := env, cost := 0 } with
      | panic => intro h; rfl
      | _ => intro h; exact h.elim
    | out =>
      cases eval W { C with limit := none } n (collapse e) { env := env, cost := 0 } with
      | out => intro h; rfl
      | _ => intro h; exact h.elim

end Verif
