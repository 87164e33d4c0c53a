import Verif.Proofs.EvalScope

set_option linter.unusedSimpArgs false
set_option linter.unusedVariables false

/-!
# Evaluation depends on the environment only through its bindings, and without a limit not on the cost so far
-/

namespace Verif
open Spec
variable {G B T α β : Type}

/-- The two routines act alike on states that cannot be told apart. -/
def Same (lim : Option Nat) (Q : α → Prop) (m m' : EvalM G B α) : Prop :=
  (∀ s t, Alike lim s t → SameRes lim (m s) (m' t)) ∧ ∀ s a s', m s = .ok (a, s') → Q a

variable {lim : Option Nat}

theorem Same.bind {Q : α → Prop} {Q' : β → Prop} {m m' : EvalM G B α} {f f' : α → EvalM G B β} (h : Same lim Q m m')
    (h' : ∀ a, Q a → Same lim Q' (f a) (f' a)) : Same lim Q' (m >>= f) (m' >>= f') := by
  refine ⟨fun s t hst => ?_, fun s b s' hm => ?_⟩
  · have h1 := h.1 s t hst
    cases hm : m s with
    | ok r =>
      cases hm' : m' t with
      | ok r' =>
        obtain ⟨a, s1⟩ := r
        obtain ⟨a', t1⟩ := r'
        rw [hm, hm'] at h1
        obtain ⟨h1, h2⟩ := h1
        dsimp only at h1 h2
        subst h1
        rw [EvalM.bind_ok hm, EvalM.bind_ok hm']
        exact (h' a (h.2 s a s1 hm)).1 s1 t1 h2
      | _ => rw [hm, hm'] at h1; exact h1.elim
    | err e =>
      cases hm' : m' t with
      | err e' => rw [hm, hm'] at h1; rw [EvalM.bind_err hm, EvalM.bind_err hm']; exact h1
      | _ => rw [hm, hm'] at h1; exact h1.elim
    | panic =>
      cases hm' : m' t with
      | panic => rw [EvalM.bind_panic hm, EvalM.bind_panic hm']; exact trivial
      | _ => rw [hm, hm'] at h1; exact h1.elim
    | out =>
      cases hm' : m' t with
      | out => rw [EvalM.bind_out hm, EvalM.bind_out hm']; exact trivial
      | _ => rw [hm, hm'] at h1; exact h1.elim
  · obtain ⟨a, s1, h1, h2⟩ := EvalM.bind_eq_ok.1 hm
    exact (h' a (h.2 s a s1 h1)).2 s1 b s' h2

theorem Same.mono {Q Q' : α → Prop} {m m' : EvalM G B α} (h : Same lim Q m m') (hq : ∀ a, Q a → Q' a) : Same lim Q' m m' :=
  ⟨h.1, fun s a s' hm => hq a (h.2 s a s' hm)⟩

/-- A routine that only changes the environment. -/
theorem Same.env (f : FMap (BitVec 32) (Value G B) → α) (g : FMap (BitVec 32) (Value G B) → FMap (BitVec 32) (Value G B))
    (hf : ∀ a b, SameBindings a b → f a = f b) (hg : ∀ a b, SameBindings a b → SameBindings (g a) (g b)) :
    Same lim (fun _ => True) (fun s => .ok (f s.env, { s with env := g s.env }) : EvalM G B α)
      (fun s => .ok (f s.env, { s with env := g s.env }) : EvalM G B α) :=
  ⟨fun s t h => ⟨hf _ _ h.1, hg _ _ h.1, h.2⟩, fun _ _ _ _ => trivial⟩

theorem Same.pure (a : α) : Same lim (fun _ => True) (Pure.pure a : EvalM G B α) (Pure.pure a) :=
  ⟨fun s t h => ⟨rfl, h⟩, fun _ _ _ _ => trivial⟩

theorem Same.fail (e : EvalErr) : Same lim (fun _ => True) (EvalM.fail e : EvalM G B α) (EvalM.fail e) :=
  ⟨fun s t h => rfl, fun _ _ _ _ => trivial⟩

theorem SameBindings.insert {a b : FMap (BitVec 32) (Value G B)} (h : SameBindings a b) (id : BitVec 32) (v : Value G B) :
    SameBindings (a.insert id v) (b.insert id v) := by
  intro i; rw [get_insert', get_insert', h i]

theorem SameBindings.note {a b : FMap (BitVec 32) (Value G B)} (h : SameBindings a b) (sv : Saved G B) (id : BitVec 32) :
    sv.note a id = sv.note b id := by
  unfold Saved.note; rw [h id]

theorem SameBindings.eraseAll {a b : FMap (BitVec 32) (Value G B)} (h : SameBindings a b) : ∀ l : List (BitVec 32),
    SameBindings (l.foldl (fun m i => FMap.erase m i) a) (l.foldl (fun m i => FMap.erase m i) b) := by
  intro l id
  rw [get_foldl_erase, get_foldl_erase, h id]

theorem SameBindings.insertAll : ∀ (l a b : FMap (BitVec 32) (Value G B)), SameBindings a b →
    SameBindings (l.foldl (fun m p => FMap.insert m p.1 p.2) a) (l.foldl (fun m p => FMap.insert m p.1 p.2) b)
  | [], _, _, h => h
  | p :: l, a, b, h => insertAll l _ _ (SameBindings.insert h p.1 p.2)

theorem SameBindings.restore {a b : FMap (BitVec 32) (Value G B)} (h : SameBindings a b) (sv : Saved G B) :
    SameBindings (sv.restore a) (sv.restore b) := by
  unfold Saved.restore
  exact SameBindings.insertAll _ _ _ (SameBindings.eraseAll h _)

theorem SameBindings.isEmpty {a b : FMap (BitVec 32) (Value G B)} (h : SameBindings a b) : a.isEmpty = b.isEmpty := by
  cases a with
  | nil =>
    cases b with
    | nil => rfl
    | cons p l => have := h p.1; simp [FMap.get] at this
  | cons p l =>
    cases b with
    | nil => have := h p.1; simp [FMap.get] at this
    | cons q l' => rfl

theorem Same.blockTop {ev ev' : Ev G B} (h : ∀ e, Same lim (fun _ => True) (ev e) (ev' e)) : ∀ items,
    Same lim (fun _ => True) (Verif.blockTop ev items) (Verif.blockTop ev' items)
  | [] => .pure _
  | e :: l => by
    unfold Verif.blockTop
    split
    · exact .pure _
    · next id rhs l' heq =>
      cases heq
      exact (h rhs).bind fun v _ => (Same.env (fun _ => ()) (fun env => env.insert id v) (fun _ _ _ => rfl)
        fun _ _ h => SameBindings.insert h id v).bind fun _ _ => Same.blockTop h l
    · exact .fail _

theorem Same.blockInner {ev ev' : Ev G B} (h : ∀ e, Same lim (fun _ => True) (ev e) (ev' e)) : ∀ items sv,
    Same lim (fun _ => True) (Verif.blockInner ev items sv) (Verif.blockInner ev' items sv)
  | [], sv => .pure _
  | e :: l, sv => by
    unfold Verif.blockInner
    split
    · exact .pure _
    · next sv id rhs l' heq =>
      cases heq
      exact (h rhs).bind fun v _ => (Same.env (fun env => Saved.note _ env id) (fun env => env.insert id v)
        (fun _ _ h => SameBindings.note h _ id) fun _ _ h => SameBindings.insert h id v).bind fun sv' _ => Same.blockInner h l sv'
    · exact .fail _

theorem Same.bindArgs : ∀ (l : List (BitVec 32 × Value G B)) (sv : Saved G B),
    Same lim (fun _ => True) (Verif.bindArgs l sv) (Verif.bindArgs l sv)
  | [], sv => .pure _
  | (id, v) :: l, sv => by
    unfold Verif.bindArgs
    exact (Same.env (fun env => Saved.note _ env id) (fun env => env.insert id v)
        (fun _ _ h => SameBindings.note h _ id) fun _ _ h => SameBindings.insert h id v).bind fun sv' _ => Same.bindArgs l sv'

theorem Same.evalBlock {ev ev' : Ev G B} (h : ∀ e, Same lim (fun _ => True) (ev e) (ev' e)) (items : List (Expr G B)) (r : Expr G B) :
    Same lim (fun _ => True) (Verif.evalBlock ev items r) (Verif.evalBlock ev' items r) := by
  unfold Verif.evalBlock
  refine Same.bind (Q := fun _ => True) (Same.env (fun env => env.isEmpty) (fun env => env) (fun _ _ h => SameBindings.isEmpty h)
    fun _ _ h => h) fun top _ => ?_
  split
  · exact (Same.blockTop h items).bind fun _ _ => h r
  · exact (Same.blockInner h items _).bind fun sv _ => (h r).bind fun v _ =>
      (Same.env (fun _ => ()) (fun env => sv.restore env) (fun _ _ _ => rfl) fun _ _ h => SameBindings.restore h sv).bind
        fun _ _ => .pure _

theorem Same.applyLam {ev ev' : Ev G B} (h : ∀ e, Same lim (fun _ => True) (ev e) (ev' e)) (f : Value G B) (args : List (Value G B)) :
    Same lim (fun _ => True) (Verif.applyLam ev f args) (Verif.applyLam ev' f args) := by
  unfold Verif.applyLam
  split
  · exact (Same.bindArgs _ _).bind fun sv _ => (h _).bind fun v _ =>
      (Same.env (fun _ => ()) (fun env => sv.restore env) (fun _ _ _ => rfl) fun _ _ h => SameBindings.restore h sv).bind
        fun _ _ => .pure _
  · exact .fail _

variable [DecidableEq G] [DecidableEq B] [DecidableEq (Value G B)]

/-- Alike states give alike outcomes. -/
def sameLogic (W : World G B T) (C : EvalCtx G B) : EvLogic W C where
  X := fun _ => True
  L := fun _ _ => True
  P := fun Q m m' => Same C.limit Q m m'
  lift := fun {α r Q} h => by
    refine ⟨fun s t hst => ?_, fun s a s' hm => h.2 a (EvalM.lift_eq_ok.1 hm).1⟩
    cases r with
    | ok a => exact ⟨rfl, hst⟩
    | err e => exact rfl
    | panic => exact trivial
    | out => exact trivial
  bind := fun h h' => h.bind h'
  addCost := by
    refine ⟨fun s t hst => ?_, fun _ _ _ _ => trivial⟩
    unfold Verif.addCost
    cases hl : C.limit with
    | none => exact ⟨rfl, hst.1, .inl rfl⟩
    | some L =>
      have hc : s.cost = t.cost := by
        rcases hst.2 with h | h
        · rw [hl] at h; cases h
        · exact h
      dsimp only
      rw [hc]
      split
      · exact rfl
      · exact ⟨rfl, hst.1, .inr rfl⟩
  useVar := by
    intro id t _
    refine ⟨fun s t hst => ?_, fun _ a _ _ => allLam_true a⟩
    unfold Verif.useVar
    rw [hst.1 id]
    cases FMap.get t.env id with
    | some v => exact ⟨rfl, hst⟩
    | none => exact rfl
  withArg := fun {α Q m m' id arg} _ h => by
    refine ⟨fun s t hst => ?_, fun s a s' hm => ?_⟩
    · have h1 := h.1 { s with env := s.env.insert id arg } { t with env := t.env.insert id arg }
        ⟨SameBindings.insert hst.1 id arg, hst.2⟩
      unfold Verif.withArg
      cases hm : m { s with env := s.env.insert id arg } with
      | ok r =>
        cases hm' : m' { t with env := t.env.insert id arg } with
        | ok r' =>
          obtain ⟨a, s1⟩ := r
          obtain ⟨a', t1⟩ := r'
          rw [hm, hm'] at h1
          obtain ⟨h1, h2, h3⟩ := h1
          refine ⟨h1, ?_, h3⟩
          dsimp only
          rw [hst.1 id]
          dsimp only at h2
          intro i
          cases FMap.get t.env id with
          | some o => dsimp only; rw [get_insert', get_insert', h2 i]
          | none => dsimp only; rw [get_erase', get_erase', h2 i]
        | _ => rw [hm, hm'] at h1; exact h1.elim
      | err e =>
        cases hm' : m' { t with env := t.env.insert id arg } with
        | err e' => rw [hm, hm'] at h1; exact h1
        | _ => rw [hm, hm'] at h1; exact h1.elim
      | panic =>
        cases hm' : m' { t with env := t.env.insert id arg } with
        | panic => exact trivial
        | _ => rw [hm, hm'] at h1; exact h1.elim
      | out =>
        cases hm' : m' { t with env := t.env.insert id arg } with
        | out => exact trivial
        | _ => rw [hm, hm'] at h1; exact h1.elim
    · unfold Verif.withArg at hm
      split at hm
      · next h1 => cases hm; exact h.2 _ _ _ h1
      all_goals cases hm
  child := fun _ _ => trivial
  func := fun _ => trivial
  lam := fun _ => trivial
  block := fun h _ => (Same.evalBlock (fun e => (h e trivial).mono fun _ _ => trivial) _ _).mono fun a _ => allLam_true a
  apply := fun h _ _ => (Same.applyLam (fun e => (h e trivial).mono fun _ _ => trivial) _ _).mono fun a _ => allLam_true a
  deserC := fun _ _ => trivial
  deserR := fun _ _ => trivial

theorem eval_same (W : World G B T) (C : EvalCtx G B) : ∀ (n : Nat) (e : Expr G B),
    Same C.limit (AllLam fun _ _ => True) (eval W C n e) (eval W C n e)
  | 0, e => ⟨fun _ _ _ => trivial, fun s a s' _ => allLam_true a⟩
  | n + 1, e => (sameLogic W C).bind (sameLogic W C).addCost fun _ _ =>
      EvLogic.step (K := sameLogic W C) (fun e _ => eval_same W C n e) e trivial

end Verif
