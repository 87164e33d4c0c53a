import Verif.Proofs.EvalScope

set_option linter.unusedSimpArgs false
set_option linter.unusedVariables false

/-!
# Functions in the environment stay tidy, also in the empty environment
-/

namespace Verif
open Spec
variable {G B T α β : Type} {S : TidyClass G B}

/-- All functions in the environment are in the class. -/
def TidyEnv (S : TidyClass G B) (env : FMap (BitVec 32) (Value G B)) : Prop := ∀ id v, env.get id = some v → AllLam S.L v

theorem TidyEnv.nil : TidyEnv S [] := fun id v h => by cases h

theorem TidyEnv.insert {env : FMap (BitVec 32) (Value G B)} (h : TidyEnv S env) (id : BitVec 32) {v : Value G B} (hv : AllLam S.L v) :
    TidyEnv S (env.insert id v) := by
  intro i w hw
  rw [get_insert'] at hw
  split at hw
  · cases hw; exact hv
  · exact h i w hw

theorem TidyEnv.erase {env : FMap (BitVec 32) (Value G B)} (h : TidyEnv S env) (id : BitVec 32) : TidyEnv S (env.erase id) := by
  intro i w hw
  rw [get_erase'] at hw
  split at hw
  · cases hw
  · exact h i w hw

theorem TidyEnv.congr {env env' : FMap (BitVec 32) (Value G B)} (h : TidyEnv S env) (he : SameBindings env' env) : TidyEnv S env' :=
  fun i w hw => h i w (by rw [← he]; exact hw)

theorem TidyEnv.insertAll : ∀ (l : FMap (BitVec 32) (Value G B)) {env : FMap (BitVec 32) (Value G B)},
    (∀ p ∈ l, AllLam S.L p.2) → TidyEnv S env → TidyEnv S (l.foldl (fun m p => m.insert p.1 p.2) env)
  | [], _, _, h => h
  | p :: l, _, hl, h => TidyEnv.insertAll l (fun q hq => hl q (List.mem_cons_of_mem _ hq)) (h.insert _ (hl p (List.mem_cons_self ..)))

theorem TidyEnv.eraseAll : ∀ (l : List (BitVec 32)) {env : FMap (BitVec 32) (Value G B)},
    TidyEnv S env → TidyEnv S (l.foldl (fun m id => m.erase id) env)
  | [], _, h => h
  | _ :: l, _, h => TidyEnv.eraseAll l (h.erase _)

/-- What was saved is in the class. -/
def TidySaved (S : TidyClass G B) (sv : Saved G B) : Prop := ∀ p ∈ sv.existing, AllLam S.L p.2

theorem mem_insert_map {κ ν : Type} [DecidableEq κ] {m : FMap κ ν} {k : κ} {v : ν} {p : κ × ν} (h : p ∈ m.insert k v) :
    p.2 = v ∨ p ∈ m := by
  induction m with
  | nil => simp only [FMap.insert, List.mem_singleton] at h; subst h; exact .inl rfl
  | cons q m ih =>
    simp only [FMap.insert] at h
    split at h
    · rcases List.mem_cons.1 h with rfl | h
      · exact .inl rfl
      · exact .inr (List.mem_cons_of_mem _ h)
    · rcases List.mem_cons.1 h with rfl | h
      · exact .inr (List.mem_cons_self ..)
      · rcases ih h with h | h
        · exact .inl h
        · exact .inr (List.mem_cons_of_mem _ h)

theorem TidySaved.start : TidySaved S ({ existing := [], news := [] } : Saved G B) := by intro p hp; cases hp

theorem TidySaved.note {sv : Saved G B} (h : TidySaved S sv) {env : FMap (BitVec 32) (Value G B)} (he : TidyEnv S env) (id : BitVec 32) :
    TidySaved S (sv.note env id) := by
  unfold Saved.note
  split
  · next o ho =>
    intro p hp
    rcases mem_insert_map hp with e | hp
    · rw [e]; exact he id _ ho
    · exact h p hp
  · exact h

theorem TidySaved.restore {sv : Saved G B} (h : TidySaved S sv) {env : FMap (BitVec 32) (Value G B)} (he : TidyEnv S env) :
    TidyEnv S (sv.restore env) := TidyEnv.insertAll _ h (TidyEnv.eraseAll _ he)

/-- The routine keeps the functions in the environment in the class and its result satisfies `Q`. -/
def KeepsTidy (S : TidyClass G B) {α : Type} (Q : α → Prop) (m : EvalM G B α) : Prop :=
  ∀ s a s', TidyEnv S s.env → m s = .ok (a, s') → Q a ∧ TidyEnv S s'.env

theorem keepsTidy_withArg {Q : α → Prop} {m : EvalM G B α} {id : BitVec 32} {arg : Value G B} (ha : AllLam S.L arg)
    (h : KeepsTidy S Q m) : KeepsTidy S Q (withArg id arg m) := by
  intro s a s' hs hm
  unfold withArg at hm
  split at hm
  · next b s1 h1 =>
    cases hm
    obtain ⟨h2, h3⟩ := h _ _ _ (hs.insert id ha) h1
    refine ⟨h2, ?_⟩
    cases hg : s.env.get id with
    | some old => exact h3.insert _ (hs _ _ hg)
    | none => exact h3.erase _
  all_goals cases hm

theorem keepsTidy_blockTop {ev : Ev G B} (h : ∀ e, S.X e → KeepsTidy S (AllLam S.L) (ev e)) :
    ∀ (items : List (Expr G B)), (∀ e ∈ items, S.X e) → KeepsTidy S (fun _ => True) (blockTop ev items)
  | [], _ => by intro s a s' hs hm; cases hm; exact ⟨trivial, hs⟩
  | e :: l, ht => by
    intro s a s' hs hm
    cases e with
    | valDef id rhs =>
      unfold blockTop at hm
      obtain ⟨v, s1, h1, hm⟩ := EvalM.bind_eq_ok.1 hm
      obtain ⟨u, s2, h2, hm⟩ := EvalM.bind_eq_ok.1 hm
      cases h2
      obtain ⟨hv, hs1⟩ := h rhs (S.child (ht _ (List.mem_cons_self ..)) (by simp [children])) s v s1 hs h1
      exact keepsTidy_blockTop h l (fun e he => ht e (List.mem_cons_of_mem _ he)) _ _ _ (hs1.insert id hv) hm
    | _ => cases hm

theorem keepsTidy_blockInner {ev : Ev G B} (h : ∀ e, S.X e → KeepsTidy S (AllLam S.L) (ev e)) :
    ∀ (items : List (Expr G B)) (sv : Saved G B), (∀ e ∈ items, S.X e) → TidySaved S sv →
      KeepsTidy S (TidySaved S) (blockInner ev items sv)
  | [], sv, _, hsv => by intro s a s' hs hm; cases hm; exact ⟨hsv, hs⟩
  | e :: l, sv, ht, hsv => by
    intro s a s' hs hm
    cases e with
    | valDef id rhs =>
      unfold blockInner at hm
      obtain ⟨v, s1, h1, hm⟩ := EvalM.bind_eq_ok.1 hm
      obtain ⟨u, s2, h2, hm⟩ := EvalM.bind_eq_ok.1 hm
      cases h2
      obtain ⟨hv, hs1⟩ := h rhs (S.child (ht _ (List.mem_cons_self ..)) (by simp [children])) s v s1 hs h1
      exact keepsTidy_blockInner h l _ (fun e he => ht e (List.mem_cons_of_mem _ he)) (hsv.note hs1 id) _ _ _ (hs1.insert id hv) hm
    | _ => cases hm

theorem keepsTidy_evalBlock {ev : Ev G B} (h : ∀ e, S.X e → KeepsTidy S (AllLam S.L) (ev e)) {items : List (Expr G B)} {r : Expr G B}
    (ht : S.X (.block items r)) : KeepsTidy S (AllLam S.L) (evalBlock ev items r) := by
  intro s v s' hs hr
  have hi : ∀ e ∈ items, S.X e := fun e he => S.child ht (by simp [children, he])
  have hx : S.X r := S.child ht (by simp [children])
  unfold evalBlock at hr
  obtain ⟨top, s0, h0, hr⟩ := EvalM.bind_eq_ok.1 hr
  cases h0
  split at hr
  · obtain ⟨u, s1, h1, hr⟩ := EvalM.bind_eq_ok.1 hr
    exact h r hx s1 v s' (keepsTidy_blockTop h items hi _ _ _ hs h1).2 hr
  · obtain ⟨sv, s1, h1, hr⟩ := EvalM.bind_eq_ok.1 hr
    obtain ⟨v', s2, h2, hr⟩ := EvalM.bind_eq_ok.1 hr
    obtain ⟨u, s3, h3, hr⟩ := EvalM.bind_eq_ok.1 hr
    cases h3
    cases hr
    obtain ⟨hsv, hs1⟩ := keepsTidy_blockInner h items _ hi TidySaved.start _ _ _ hs h1
    obtain ⟨hv, hs2⟩ := h r hx s1 _ s2 hs1 h2
    exact ⟨hv, hsv.restore hs2⟩

theorem keepsTidy_bindArgs : ∀ (l : List (BitVec 32 × Value G B)) (sv : Saved G B), (∀ p ∈ l, AllLam S.L p.2) → TidySaved S sv →
    KeepsTidy S (TidySaved S) (bindArgs l sv)
  | [], sv, _, hsv => by intro s a s' hs hm; cases hm; exact ⟨hsv, hs⟩
  | (id, v) :: l, sv, hl, hsv => by
    intro s a s' hs hm
    unfold bindArgs at hm
    obtain ⟨u, s2, h2, hm⟩ := EvalM.bind_eq_ok.1 hm
    cases h2
    exact keepsTidy_bindArgs l _ (fun p hp => hl p (List.mem_cons_of_mem _ hp)) (hsv.note hs id) _ _ _
      (hs.insert id (hl _ (List.mem_cons_self ..))) hm

theorem keepsTidy_applyLam {ev : Ev G B} (h : ∀ e, S.X e → KeepsTidy S (AllLam S.L) (ev e)) {params : List (BitVec 32 × SType)}
    {body : Expr G B} {args : List (Value G B)} (ht : S.X (.func params body)) (ha : ∀ v ∈ args, AllLam S.L v) :
    KeepsTidy S (AllLam S.L) (applyLam ev (.lam params body) args) := by
  intro s v s' hs hr
  unfold applyLam at hr
  obtain ⟨sv, s1, h1, hr⟩ := EvalM.bind_eq_ok.1 hr
  obtain ⟨v', s2, h2, hr⟩ := EvalM.bind_eq_ok.1 hr
  obtain ⟨u, s3, h3, hr⟩ := EvalM.bind_eq_ok.1 hr
  cases h3
  cases hr
  obtain ⟨hsv, hs1⟩ := keepsTidy_bindArgs _ _ (fun p hp => ha _ (List.of_mem_zip (a := p.1) (b := p.2) hp).2) TidySaved.start _ _ _ hs h1
  obtain ⟨hv, hs2⟩ := h body (S.child ht (by simp [children])) s1 _ s2 hs1 h2
  exact ⟨hv, hsv.restore hs2⟩

variable [DecidableEq G] [DecidableEq B] [DecidableEq (Value G B)]

/-- Functions in the environment stay in the class. -/
def tidyLogic (W : World G B T) (C : EvalCtx G B) (S : TidyClass G B)
    (hC : ∀ {t id e}, S.X (.deserCtx t id) → contextExpr W C t id = .ok e → S.X e)
    (hR : ∀ {reg t d e}, S.X (.deserReg reg t d) → registerExpr W C reg t d = .ok e → S.X e) : EvLogic W C where
  X := S.X
  L := S.L
  P := fun Q m _ => KeepsTidy S Q m
  lift := fun {α r Q} h s a s' hs hm => by
    obtain ⟨h1, rfl⟩ := EvalM.lift_eq_ok.1 hm
    exact ⟨h.2 a h1, hs⟩
  bind := fun {α β Q Q' m m' f f'} h h' s b s' hs hm => by
    obtain ⟨a, s1, h1, h2⟩ := EvalM.bind_eq_ok.1 hm
    obtain ⟨ha, hb⟩ := h s a s1 hs h1
    exact h' a ha s1 b s' hb h2
  addCost := by
    intro s a s' hs hm
    unfold Verif.addCost at hm
    split at hm
    · split at hm
      · cases hm
      · cases hm; exact ⟨trivial, hs⟩
    · cases hm; exact ⟨trivial, hs⟩
  useVar := by
    intro id t _ s a s' hs hm
    unfold Verif.useVar at hm
    split at hm
    · next v hv => cases hm; exact ⟨hs id _ hv, hs⟩
    · cases hm
  withArg := fun ha h => keepsTidy_withArg ha h
  child := S.child
  func := fun h => h
  lam := fun h => S.child h (by simp [children])
  block := fun h ht => keepsTidy_evalBlock h ht
  apply := fun h ht ha => keepsTidy_applyLam h ht ha
  deserC := hC
  deserR := hR

theorem eval_keepsTidy (W : World G B T) (C : EvalCtx G B) (S : TidyClass G B)
    (hC : ∀ {t id e}, S.X (.deserCtx t id) → contextExpr W C t id = .ok e → S.X e)
    (hR : ∀ {reg t d e}, S.X (.deserReg reg t d) → registerExpr W C reg t d = .ok e → S.X e) :
    ∀ (n : Nat) (e : Expr G B), S.X e → KeepsTidy S (AllLam S.L) (eval W C n e)
  | 0, e, _ => by intro s a s' _ h; cases h
  | n + 1, e, he => (tidyLogic W C S hC hR).bind (tidyLogic W C S hC hR).addCost fun _ _ =>
      EvLogic.step (K := tidyLogic W C S hC hR) (ev' := eval W C n) (eval_keepsTidy W C S hC hR n) e he

end Verif
