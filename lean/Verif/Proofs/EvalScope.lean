import Verif.Proofs.EvalLogic
import Verif.Proofs.FMap

set_option linter.unusedSimpArgs false
set_option linter.unusedVariables false

/-!
# Instances of the program logic: variables, nesting budget, cost limit
-/

namespace Verif
open Spec
variable {G B T α β : Type}

/-! ## Restoring variables -/

theorem get_insert' {ν : Type} (m : FMap (BitVec 32) ν) (k : BitVec 32) (v : ν) (i : BitVec 32) :
    (m.insert k v).get i = if i = k then some v else m.get i := by
  rw [FMap.get_insert]; simp only [eq_comm]

theorem get_erase' {ν : Type} (m : FMap (BitVec 32) ν) (k : BitVec 32) (i : BitVec 32) :
    (m.erase k).get i = if i = k then none else m.get i := by
  rw [FMap.get_erase]; simp only [eq_comm]

theorem get_foldl_insert {ν : Type} : ∀ (l m : FMap (BitVec 32) ν), l.Ok → ∀ id,
    FMap.get (l.foldl (fun m p => FMap.insert m p.1 p.2) m) id = (l.get id).or (m.get id)
  | [], m, _, id => rfl
  | (k, v) :: l, m, h, id => by
    have h' : FMap.Ok l := (List.nodup_cons.1 h).2
    rw [List.foldl_cons, get_foldl_insert l _ h' id, FMap.get_insert, FMap.get]
    by_cases hk : k = id
    · subst hk
      have : FMap.get l k = none := (FMap.get_eq_none_iff l k).2 (List.nodup_cons.1 h).1
      simp [this]
    · simp [hk, Ne.symm hk, eq_comm]

theorem get_foldl_erase {ν : Type} : ∀ (l : List (BitVec 32)) (m : FMap (BitVec 32) ν) (id : BitVec 32),
    FMap.get (l.foldl (fun m i => FMap.erase m i) m) id = if id ∈ l then none else m.get id
  | [], m, id => by simp
  | k :: l, m, id => by
    rw [List.foldl_cons, get_foldl_erase l, get_erase']
    by_cases hk : id = k
    · subst hk; simp
    · simp [hk]

/-- What is noted about the variables `D` bound so far, in an environment that was `e0` at first. -/
structure Noted (e0 : FMap (BitVec 32) (Value G B)) (sv : Saved G B) (env : FMap (BitVec 32) (Value G B))
    (D : List (BitVec 32)) : Prop where
  keys : sv.existing.Ok
  outside : ∀ id, id ∉ D → env.get id = e0.get id ∧ sv.existing.get id = none ∧ id ∉ sv.news
  old : ∀ id o, id ∈ D → e0.get id = some o → sv.existing.get id = some o
  fresh : ∀ id, id ∈ D → e0.get id = none → sv.existing.get id = none ∧ id ∈ sv.news

theorem Noted.start (e0 : FMap (BitVec 32) (Value G B)) : Noted e0 { existing := [], news := [] } e0 [] where
  keys := FMap.Ok.nil
  outside := fun id _ => ⟨rfl, rfl, by simp⟩
  old := by simp
  fresh := by simp

theorem Noted.congr {e0 env env' : FMap (BitVec 32) (Value G B)} {sv : Saved G B} {D : List (BitVec 32)} (h : Noted e0 sv env D)
    (he : SameBindings env' env) : Noted e0 sv env' D :=
  { h with outside := fun id hid => by rw [he id]; exact h.outside id hid }

theorem Noted.note {e0 env : FMap (BitVec 32) (Value G B)} {sv : Saved G B} {D : List (BitVec 32)} (h : Noted e0 sv env D)
    (id : BitVec 32) (v : Value G B) (hid : id ∉ D) : Noted e0 (sv.note env id) (env.insert id v) (id :: D) := by
  have h0 := (h.outside id hid).1
  unfold Saved.note
  cases hg : env.get id with
  | some o =>
    dsimp only
    refine ⟨h.keys.insert _ _, fun i hi => ?_, fun i o' hi ho => ?_, fun i hi ho => ?_⟩
    · simp only [List.mem_cons, not_or] at hi
      obtain ⟨h1, h2, h3⟩ := h.outside i hi.2
      refine ⟨?_, ?_, h3⟩
      · rw [get_insert', if_neg hi.1, h1]
      · rw [get_insert', if_neg hi.1, h2]
    · rw [get_insert']
      by_cases hii : i = id
      · subst hii; rw [← h0, hg] at ho; simpa using ho
      · rw [if_neg hii]; exact h.old i o' (by simpa [hii] using hi) ho
    · have hii : i ≠ id := by rintro rfl; rw [← h0, hg] at ho; cases ho
      obtain ⟨h1, h2⟩ := h.fresh i (by simpa [hii] using hi) ho
      exact ⟨by rw [get_insert', if_neg hii, h1], h2⟩
  | none =>
    dsimp only
    refine ⟨h.keys, fun i hi => ?_, fun i o' hi ho => ?_, fun i hi ho => ?_⟩
    · simp only [List.mem_cons, not_or] at hi
      obtain ⟨h1, h2, h3⟩ := h.outside i hi.2
      refine ⟨?_, h2, ?_⟩
      · rw [get_insert', if_neg hi.1, h1]
      · simp [h3, hi.1]
    · have hii : i ≠ id := by rintro rfl; rw [← h0, hg] at ho; cases ho
      exact h.old i o' (by simpa [hii] using hi) ho
    · by_cases hii : i = id
      · subst hii
        exact ⟨(h.outside i hid).2.1, by simp⟩
      · obtain ⟨h1, h2⟩ := h.fresh i (by simpa [hii] using hi) ho
        exact ⟨h1, by simp [h2]⟩

theorem Noted.restore {e0 env : FMap (BitVec 32) (Value G B)} {sv : Saved G B} {D : List (BitVec 32)} (h : Noted e0 sv env D) :
    SameBindings (sv.restore env) e0 := by
  intro id
  unfold Saved.restore
  rw [get_foldl_insert _ _ h.keys, get_foldl_erase]
  by_cases hd : id ∈ D
  · cases he : e0.get id with
    | some o => rw [h.old id o hd he]; rfl
    | none =>
      obtain ⟨h1, h2⟩ := h.fresh id hd he
      rw [h1, if_pos h2]; rfl
  · obtain ⟨h1, h2, h3⟩ := h.outside id hd
    rw [h2, if_neg h3, h1]; rfl

/-- A class of tidy expressions that contains the parts of its members. -/
structure TidyClass (G B : Type) where
  X : Expr G B → Prop
  here : ∀ {e}, X e → DistinctBinders e
  child : ∀ {e c}, X e → c ∈ children e → X c

/-- The functions of the class. -/
def TidyClass.L (S : TidyClass G B) (args : List (BitVec 32 × SType)) (body : Expr G B) : Prop := S.X (.func args body)

variable {S : TidyClass G B}

/-- The environment is not empty and its functions are tidy. -/
structure GoodEnv (S : TidyClass G B) (env : FMap (BitVec 32) (Value G B)) : Prop where
  some : ∃ id v, env.get id = some v
  tidy : ∀ id v, env.get id = .some v → AllLam S.L v

theorem GoodEnv.congr {e e' : FMap (BitVec 32) (Value G B)} (h : GoodEnv S e) (he : SameBindings e' e) : GoodEnv S e' :=
  ⟨by obtain ⟨id, v, hv⟩ := h.some; exact ⟨id, v, by rw [he]; exact hv⟩, fun id v hv => h.tidy id v (by rw [← he]; exact hv)⟩

theorem GoodEnv.insert {e : FMap (BitVec 32) (Value G B)} (h : GoodEnv S e) (id : BitVec 32) {v : Value G B} (hv : AllLam S.L v) :
    GoodEnv S (e.insert id v) := by
  refine ⟨⟨id, v, by rw [get_insert', if_pos rfl]⟩, fun i w hw => ?_⟩
  rw [get_insert'] at hw
  split at hw
  · cases hw; exact hv
  · exact h.tidy i w hw

theorem SameBindings.rfl {e : FMap (BitVec 32) (Value G B)} : SameBindings e e := fun _ => Eq.refl _
theorem SameBindings.trans {a b c : FMap (BitVec 32) (Value G B)} (h : SameBindings a b) (h' : SameBindings b c) :
    SameBindings a c := fun id => (h id).trans (h' id)

/-- The routine keeps the variables of a good environment and its result satisfies `Q`. -/
def Keeps (S : TidyClass G B) {α : Type} (Q : α → Prop) (m : EvalM G B α) : Prop :=
  ∀ s a s', GoodEnv S s.env → m s = .ok (a, s') → Q a ∧ SameBindings s'.env s.env

theorem keeps_withArg {Q : α → Prop} {m : EvalM G B α} {id : BitVec 32} {arg : Value G B} (ha : AllLam S.L arg) (h : Keeps S Q m) :
    Keeps S Q (withArg id arg m) := by
  intro s a s' hs hm
  unfold withArg at hm
  split at hm
  · next b s1 h1 =>
    cases hm
    obtain ⟨h2, h3⟩ := h _ _ _ (hs.insert id ha) h1
    refine ⟨h2, fun i => ?_⟩
    dsimp only at h3 ⊢
    cases hg : s.env.get id with
    | some old =>
      dsimp only
      rw [get_insert', h3 i, get_insert']
      split
      · next e => rw [e, hg]
      · rfl
    | none =>
      dsimp only
      rw [get_erase', h3 i, get_insert']
      split
      · next e => rw [e, hg]
      · rfl
  all_goals cases hm

theorem keeps_blockInner {ev : Ev G B} (h : ∀ e, S.X e → Keeps S (AllLam S.L) (ev e)) (e0 : FMap (BitVec 32) (Value G B)) :
    ∀ (items : List (Expr G B)) (sv : Saved G B) (D : List (BitVec 32)) (s s' : EvalSt G B) (sv' : Saved G B),
    (∀ e ∈ items, S.X e) → (definedIds items).Nodup → (∀ i ∈ D, i ∉ definedIds items) → GoodEnv S s.env → Noted e0 sv s.env D →
    blockInner ev items sv s = .ok (sv', s') → GoodEnv S s'.env ∧ ∃ D', Noted e0 sv' s'.env D'
  | [], sv, D, s, s', sv', _, _, _, hs, hn, hr => by
    cases hr; exact ⟨hs, D, hn⟩
  | .valDef id rhs :: l, sv, D, s, s', sv', ht, hd, hD, hs, hn, hr => by
    unfold blockInner at hr
    obtain ⟨v, s1, h1, hr⟩ := EvalM.bind_eq_ok.1 hr
    obtain ⟨sv1, s2, h2, hr⟩ := EvalM.bind_eq_ok.1 hr
    cases h2
    have htr : S.X rhs := S.child (ht _ (List.mem_cons_self ..)) (by simp [children])
    obtain ⟨hv, hb⟩ := h rhs htr s v s1 hs h1
    have hs1 : GoodEnv S s1.env := hs.congr hb
    have hdd : id ∉ definedIds l ∧ (definedIds l).Nodup := List.nodup_cons.1 hd
    exact keeps_blockInner h e0 l _ (id :: D) _ s' sv' (fun e he => ht e (List.mem_cons_of_mem _ he)) hdd.2
      (by
        intro i hi
        rcases List.mem_cons.1 hi with rfl | hi
        · exact hdd.1
        · exact fun hc => hD i hi (List.mem_cons_of_mem _ hc))
      (hs1.insert id hv) ((hn.congr hb).note id v (fun hc => hD id hc (List.mem_cons_self ..))) hr
  | .const _ :: _, _, _, _, _, _, _, _, _, _, _, hr | .placeholder .. :: _, _, _, _, _, _, _, _, _, _, _, hr
  | .valUse .. :: _, _, _, _, _, _, _, _, _, _, _, hr | .bools .. :: _, _, _, _, _, _, _, _, _, _, _, hr
  | .op .. :: _, _, _, _, _, _, _, _, _, _, _, hr | .bin .. :: _, _, _, _, _, _, _, _, _, _, _, hr
  | .cast .. :: _, _, _, _, _, _, _, _, _, _, _, hr | .extractReg .. :: _, _, _, _, _, _, _, _, _, _, _, hr
  | .selectField .. :: _, _, _, _, _, _, _, _, _, _, _, hr | .getVar .. :: _, _, _, _, _, _, _, _, _, _, _, hr
  | .deserCtx .. :: _, _, _, _, _, _, _, _, _, _, _, hr | .deserReg .. :: _, _, _, _, _, _, _, _, _, _, _, hr
  | .byIndex .. :: _, _, _, _, _, _, _, _, _, _, _, hr | .createAvl .. :: _, _, _, _, _, _, _, _, _, _, _, hr
  | .coll .. :: _, _, _, _, _, _, _, _, _, _, _, hr | .tuple .. :: _, _, _, _, _, _, _, _, _, _, _, hr
  | .sigma .. :: _, _, _, _, _, _, _, _, _, _, _, hr | .func .. :: _, _, _, _, _, _, _, _, _, _, _, hr
  | .apply .. :: _, _, _, _, _, _, _, _, _, _, _, hr | .block .. :: _, _, _, _, _, _, _, _, _, _, _, hr
  | .method .. :: _, _, _, _, _, _, _, _, _, _, _, hr | .property .. :: _, _, _, _, _, _, _, _, _, _, _, hr => by cases hr

theorem keeps_bindArgs (e0 : FMap (BitVec 32) (Value G B)) :
    ∀ (l : List (BitVec 32 × Value G B)) (sv : Saved G B) (D : List (BitVec 32)) (s s' : EvalSt G B) (sv' : Saved G B),
    (∀ p ∈ l, AllLam S.L p.2) → (l.map Prod.fst).Nodup → (∀ i ∈ D, i ∉ l.map Prod.fst) → GoodEnv S s.env → Noted e0 sv s.env D →
    bindArgs l sv s = .ok (sv', s') → GoodEnv S s'.env ∧ ∃ D', Noted e0 sv' s'.env D'
  | [], sv, D, s, s', sv', _, _, _, hs, hn, hr => by
    cases hr; exact ⟨hs, D, hn⟩
  | (id, v) :: l, sv, D, s, s', sv', ht, hd, hD, hs, hn, hr => by
    unfold bindArgs at hr
    obtain ⟨sv1, s2, h2, hr⟩ := EvalM.bind_eq_ok.1 hr
    cases h2
    have hdd : id ∉ l.map Prod.fst ∧ (l.map Prod.fst).Nodup := List.nodup_cons.1 hd
    exact keeps_bindArgs e0 l _ (id :: D) _ s' sv' (fun e he => ht e (List.mem_cons_of_mem _ he)) hdd.2
      (by
        intro i hi
        rcases List.mem_cons.1 hi with rfl | hi
        · exact hdd.1
        · exact fun hc => hD i hi (List.mem_cons_of_mem _ hc))
      (hs.insert id (ht _ (List.mem_cons_self ..))) (hn.note id v (fun hc => hD id hc (List.mem_cons_self ..))) hr

theorem keeps_evalBlock {ev : Ev G B} (h : ∀ e, S.X e → Keeps S (AllLam S.L) (ev e)) {items : List (Expr G B)} {r : Expr G B}
    (ht : S.X (.block items r)) : Keeps S (AllLam S.L) (evalBlock ev items r) := by
  intro s v s' hs hr
  unfold evalBlock at hr
  obtain ⟨top, s0, h0, hr⟩ := EvalM.bind_eq_ok.1 hr
  cases h0
  have hne : s.env.isEmpty = false := by
    obtain ⟨id, w, hw⟩ := hs.some
    cases he : s.env with
    | nil => rw [he] at hw; cases hw
    | cons a l => rfl
  rw [hne] at hr
  simp only [Bool.false_eq_true, if_false] at hr
  obtain ⟨sv, s1, h1, hr⟩ := EvalM.bind_eq_ok.1 hr
  obtain ⟨v', s2, h2, hr⟩ := EvalM.bind_eq_ok.1 hr
  obtain ⟨u, s3, h3, hr⟩ := EvalM.bind_eq_ok.1 hr
  cases h3
  cases hr
  obtain ⟨hg, D, hn⟩ := keeps_blockInner h s.env items _ [] s s1 sv
    (fun e he => S.child ht (by simp [children, he])) (S.here ht) (by simp) hs (Noted.start _) h1
  obtain ⟨hv, hb⟩ := h r (S.child ht (by simp [children])) s1 _ s2 hg h2
  exact ⟨hv, (hn.congr hb).restore⟩

theorem nodup_zip_fst {α β : Type} : ∀ (l : List α) (r : List β), l.Nodup → ((l.zip r).map Prod.fst).Nodup
  | [], r, _ => by simp
  | a :: l, [], _ => by simp
  | a :: l, b :: r, h => by
    rw [List.zip_cons_cons, List.map_cons, List.nodup_cons]
    refine ⟨fun hc => ?_, nodup_zip_fst l r (List.nodup_cons.1 h).2⟩
    obtain ⟨p, hp, rfl⟩ := List.mem_map.1 hc
    exact (List.nodup_cons.1 h).1 (List.of_mem_zip (a := p.1) (b := p.2) hp).1

theorem keeps_applyLam {ev : Ev G B} (h : ∀ e, S.X e → Keeps S (AllLam S.L) (ev e)) {params : List (BitVec 32 × SType)}
    {body : Expr G B} {args : List (Value G B)} (ht : S.X (.func params body)) (ha : ∀ v ∈ args, AllLam S.L v) :
    Keeps S (AllLam S.L) (applyLam ev (.lam params body) args) := by
  intro s v s' hs hr
  unfold applyLam at hr
  obtain ⟨sv, s1, h1, hr⟩ := EvalM.bind_eq_ok.1 hr
  obtain ⟨v', s2, h2, hr⟩ := EvalM.bind_eq_ok.1 hr
  obtain ⟨u, s3, h3, hr⟩ := EvalM.bind_eq_ok.1 hr
  cases h3
  cases hr
  obtain ⟨hg, D, hn⟩ := keeps_bindArgs s.env _ _ [] s s1 sv
    (fun p hp => ha _ (List.of_mem_zip (a := p.1) (b := p.2) hp).2) (nodup_zip_fst _ _ (S.here ht)) (by simp) hs (Noted.start _) h1
  obtain ⟨hv, hb⟩ := h body (S.child ht (by simp [children])) s1 _ s2 hg h2
  exact ⟨hv, (hn.congr hb).restore⟩

variable [DecidableEq G] [DecidableEq B] [DecidableEq (Value G B)]

/-- Variables are kept. -/
def keepLogic (W : World G B T) (C : EvalCtx G B) (S : TidyClass G B)
    (hC : ∀ {t id e}, S.X (.deserCtx t id) → contextExpr W C t id = .ok e → S.X e)
    (hR : ∀ {reg t d e}, S.X (.deserReg reg t d) → registerExpr W C reg t d = .ok e → S.X e) : EvLogic W C where
  X := S.X
  L := S.L
  P := fun Q m _ => Keeps S Q m
  lift := fun {α r Q} h s a s' hs hm => by
    obtain ⟨h1, rfl⟩ := EvalM.lift_eq_ok.1 hm
    exact ⟨h.2 a h1, SameBindings.rfl⟩
  bind := fun {α β Q Q' m m' f f'} h h' s b s' hs hm => by
    obtain ⟨a, s1, h1, h2⟩ := EvalM.bind_eq_ok.1 hm
    obtain ⟨ha, hb⟩ := h s a s1 hs h1
    obtain ⟨hq, hb'⟩ := h' a ha s1 b s' (hs.congr hb) h2
    exact ⟨hq, SameBindings.trans hb' hb⟩
  addCost := by
    intro s a s' hs hm
    unfold Verif.addCost at hm
    split at hm
    · split at hm
      · cases hm
      · cases hm; exact ⟨trivial, SameBindings.rfl⟩
    · cases hm; exact ⟨trivial, SameBindings.rfl⟩
  useVar := by
    intro id t _ s a s' hs hm
    unfold Verif.useVar at hm
    split at hm
    · next v hv => cases hm; exact ⟨hs.tidy id _ hv, SameBindings.rfl⟩
    · cases hm
  withArg := fun ha h => keeps_withArg ha h
  child := S.child
  func := fun h => h
  lam := fun h => S.child h (by simp [children])
  block := fun h ht => keeps_evalBlock h ht
  apply := fun h ht ha => keeps_applyLam h ht ha
  deserC := hC
  deserR := hR

theorem eval_keeps_class (W : World G B T) (C : EvalCtx G B) (S : TidyClass G B)
    (hC : ∀ {t id e}, S.X (.deserCtx t id) → contextExpr W C t id = .ok e → S.X e)
    (hR : ∀ {reg t d e}, S.X (.deserReg reg t d) → registerExpr W C reg t d = .ok e → S.X e) :
    ∀ (n : Nat) (e : Expr G B), S.X e → Keeps S (AllLam S.L) (eval W C n e)
  | 0, e, _ => by intro s a s' _ h; cases h
  | n + 1, e, he => (keepLogic W C S hC hR).bind (keepLogic W C S hC hR).addCost fun _ _ =>
      EvLogic.step (K := keepLogic W C S hC hR) (ev' := eval W C n) (eval_keeps_class W C S hC hR n) e he

omit [DecidableEq G] [DecidableEq B] [DecidableEq (Value G B)] in
/-- All tidy expressions. -/
def tidyClass : TidyClass G B where
  X := Tidy
  here := fun h => h.here
  child := fun h hc => h.child hc

theorem eval_keeps (W : World G B T) (C : EvalCtx G B) (hD : ∀ t c e, CtxConst W C c → deserialize W t c = .ok e → Tidy e)
    (n : Nat) (e : Expr G B) (he : Tidy e) : Keeps tidyClass TidyValue (eval W C n e) :=
  eval_keeps_class W C tidyClass
    (fun {t id e} _ h => by obtain ⟨c, hc, h⟩ := contextExpr_from h; exact hD _ _ _ hc h)
    (fun {reg t d e} hx h => by
      rcases registerExpr_from h with ⟨c, hc, h⟩ | h
      · exact hD _ _ _ hc h
      · exact Everywhere.child hx h) n e he

/-! ## The budget of nested calls -/

omit [DecidableEq G] [DecidableEq B] [DecidableEq (Value G B)] in
theorem allLam_true (v : Value G B) : AllLam (fun _ _ => True) v := by
  refine Value.rec (motive_1 := fun v => AllLam (fun _ _ => True) v) (motive_2 := fun l => ∀ v ∈ l, AllLam (fun _ _ => True) v)
    ?_ ?_ ?_ ?_ ?_ ?_ ?_ ?_ ?_ ?_ ?_ ?_ ?_ ?_ ?_ ?_ ?_ ?_ ?_ ?_ ?_ ?_ ?_ v
  all_goals first
    | (intro t l h; exact .mk (fun _ _ _ => trivial) h)
    | (intro l h; refine .mk (fun _ _ _ => trivial) ?_; intro c hc; exact h c hc)
    | (intro w h; refine .mk (fun _ _ _ => trivial) ?_; intro c hc; cases List.mem_singleton.1 hc; exact h)
    | (intros; refine .mk (fun _ _ _ => trivial) ?_; intro c hc; cases hc; done)
    | skip
  · intro x hx; cases hx
  · intro v l h1 h2 x hx
    rcases List.mem_cons.1 hx with rfl | hx
    · exact h1
    · exact h2 x hx

/-- `m'` gives what `m` gives, unless `m` ran out of budget. -/
def Extends {α : Type} (Q : α → Prop) (m m' : EvalM G B α) : Prop :=
  (∀ s, m s = .out ∨ m s = m' s) ∧ ∀ s a s', m s = .ok (a, s') → Q a

section
omit [DecidableEq G] [DecidableEq B] [DecidableEq (Value G B)]

theorem Extends.bind {Q : α → Prop} {Q' : β → Prop} {m m' : EvalM G B α} {f f' : α → EvalM G B β} (h : Extends Q m m')
    (h' : ∀ a, Q a → Extends Q' (f a) (f' a)) : Extends Q' (m >>= f) (m' >>= f') := by
  refine ⟨fun s => ?_, fun s b s' hm => ?_⟩
  · rcases h.1 s with h1 | h1
    · exact .inl (EvalM.bind_out h1)
    · cases hm : m s with
      | ok r =>
        obtain ⟨a, s1⟩ := r
        rw [EvalM.bind_ok hm, EvalM.bind_ok (h1 ▸ hm)]
        exact (h' a (h.2 s a s1 hm)).1 s1
      | err e => rw [EvalM.bind_err hm, EvalM.bind_err (h1 ▸ hm)]; exact .inr rfl
      | panic => rw [EvalM.bind_panic hm, EvalM.bind_panic (h1 ▸ hm)]; exact .inr rfl
      | out => exact .inl (EvalM.bind_out hm)
  · obtain ⟨a, s1, h1, h2⟩ := EvalM.bind_eq_ok.1 hm
    exact (h' a (h.2 s a s1 h1)).2 s1 b s' h2

theorem Extends.refl (m : EvalM G B α) : Extends (fun _ => True) m m := ⟨fun _ => .inr rfl, fun _ _ _ _ => trivial⟩

theorem Extends.self {Q : α → Prop} (m : EvalM G B α) (h : ∀ s a s', m s = .ok (a, s') → Q a) : Extends Q m m :=
  ⟨fun _ => .inr rfl, h⟩

theorem Extends.mono {Q Q' : α → Prop} {m m' : EvalM G B α} (h : Extends Q m m') (hq : ∀ a, Q a → Q' a) : Extends Q' m m' :=
  ⟨h.1, fun s a s' hm => hq a (h.2 s a s' hm)⟩

theorem Extends.blockTop {ev ev' : Ev G B} (h : ∀ e, Extends (fun _ => True) (ev e) (ev' e)) : ∀ items,
    Extends (fun _ => True) (Verif.blockTop ev items) (Verif.blockTop ev' items)
  | [] => .refl _
  | e :: l => by
    unfold Verif.blockTop
    split
    · exact .refl _
    · next id rhs l' heq =>
      cases heq
      exact (h rhs).bind fun v _ => (Extends.refl _).bind fun _ _ => Extends.blockTop h l
    · exact .refl _

theorem Extends.blockInner {ev ev' : Ev G B} (h : ∀ e, Extends (fun _ => True) (ev e) (ev' e)) : ∀ items sv,
    Extends (fun _ => True) (Verif.blockInner ev items sv) (Verif.blockInner ev' items sv)
  | [], sv => .refl _
  | e :: l, sv => by
    unfold Verif.blockInner
    split
    · exact .refl _
    · next sv id rhs l' heq =>
      cases heq
      exact (h rhs).bind fun v _ => (Extends.refl _).bind fun sv' _ => Extends.blockInner h l sv'
    · exact .refl _

theorem Extends.evalBlock {ev ev' : Ev G B} (h : ∀ e, Extends (fun _ => True) (ev e) (ev' e)) (items : List (Expr G B)) (r : Expr G B) :
    Extends (fun _ => True) (Verif.evalBlock ev items r) (Verif.evalBlock ev' items r) := by
  unfold Verif.evalBlock
  refine (Extends.refl _).bind fun top _ => ?_
  split
  · exact (Extends.blockTop h items).bind fun _ _ => h r
  · exact (Extends.blockInner h items _).bind fun sv _ => (h r).bind fun v _ => .refl _

theorem Extends.applyLam {ev ev' : Ev G B} (h : ∀ e, Extends (fun _ => True) (ev e) (ev' e)) (f : Value G B) (args : List (Value G B)) :
    Extends (fun _ => True) (Verif.applyLam ev f args) (Verif.applyLam ev' f args) := by
  unfold Verif.applyLam
  split
  · exact (Extends.refl _).bind fun sv _ => (h _).bind fun v _ => .refl _
  · exact .refl _
end

/-- A larger budget does not change the result. -/
def budgetLogic (W : World G B T) (C : EvalCtx G B) : EvLogic W C where
  X := fun _ => True
  L := fun _ _ => True
  P := fun Q m m' => Extends Q m m'
  lift := fun {α r Q} h => .self _ fun s a s' hm => h.2 a (EvalM.lift_eq_ok.1 hm).1
  bind := fun h h' => h.bind h'
  addCost := .refl _
  useVar := fun id t _ => .self _ fun s a s' _ => allLam_true a
  withArg := fun {α Q m m' id arg} _ h => by
    refine ⟨fun s => ?_, fun s a s' hm => ?_⟩
    · unfold Verif.withArg
      rcases h.1 { s with env := s.env.insert id arg } with h1 | h1
      · rw [h1]; exact .inl rfl
      · rw [h1]; exact .inr rfl
    · unfold Verif.withArg at hm
      split at hm
      · next h1 => cases hm; exact h.2 _ _ _ h1
      all_goals cases hm
  child := fun _ _ => trivial
  func := fun _ => trivial
  lam := fun _ => trivial
  block := fun h _ => (Extends.evalBlock (fun e => (h e trivial).mono fun _ _ => trivial) _ _).mono fun a _ => allLam_true a
  apply := fun h _ _ => (Extends.applyLam (fun e => (h e trivial).mono fun _ _ => trivial) _ _).mono fun a _ => allLam_true a
  deserC := fun _ _ => trivial
  deserR := fun _ _ => trivial

theorem eval_extends (W : World G B T) (C : EvalCtx G B) : ∀ (n : Nat) (e : Expr G B),
    Extends (AllLam fun _ _ => True) (eval W C n e) (eval W C (n + 1) e)
  | 0, e => ⟨fun _ => .inl rfl, fun s a s' _ => allLam_true a⟩
  | n + 1, e => (budgetLogic W C).bind (budgetLogic W C).addCost fun _ _ =>
      EvLogic.step (K := budgetLogic W C) (fun e _ => eval_extends W C n e) e trivial

theorem eval_mono (W : World G B T) (C : EvalCtx G B) (n k : Nat) (e : Expr G B) (s : EvalSt G B) (h : eval W C n e s ≠ .out) :
    eval W C (n + k) e s = eval W C n e s := by
  induction k with
  | zero => rfl
  | succ k ih =>
    rcases (eval_extends W C (n + k) e).1 s with h1 | h1
    · rw [ih] at h1; exact absurd h1 h
    · rw [← ih, h1]; rfl

/-! ## The cost limit -/

/-- From a cost of at least `k` on, the routine does not run out of budget, and the cost stays at least `k`. -/
def Bounded (k : Nat) {α : Type} (Q : α → Prop) (m : EvalM G B α) : Prop :=
  ∀ s, k ≤ s.cost → m s ≠ .out ∧ ∀ a s', m s = .ok (a, s') → Q a ∧ k ≤ s'.cost

section
omit [DecidableEq G] [DecidableEq B] [DecidableEq (Value G B)]
variable {k : Nat}

theorem Bounded.bind {Q : α → Prop} {Q' : β → Prop} {m : EvalM G B α} {f : α → EvalM G B β} (h : Bounded k Q m)
    (h' : ∀ a, Q a → Bounded k Q' (f a)) : Bounded k Q' (m >>= f) := by
  intro s hs
  obtain ⟨h1, h2⟩ := h s hs
  cases hm : m s with
  | ok r =>
    obtain ⟨a, s1⟩ := r
    rw [EvalM.bind_ok hm]
    obtain ⟨ha, hk⟩ := h2 a s1 hm
    exact h' a ha s1 hk
  | err e => rw [EvalM.bind_err hm]; exact ⟨by simp, by simp⟩
  | panic => rw [EvalM.bind_panic hm]; exact ⟨by simp, by simp⟩
  | out => exact absurd hm h1

theorem Bounded.mono {Q Q' : α → Prop} {m : EvalM G B α} (h : Bounded k Q m) (hq : ∀ a, Q a → Q' a) : Bounded k Q' m := by
  intro s hs
  obtain ⟨h1, h2⟩ := h s hs
  exact ⟨h1, fun a s' hm => ⟨hq a (h2 a s' hm).1, (h2 a s' hm).2⟩⟩

/-- A routine that only changes the environment. -/
theorem Bounded.env (f : EvalSt G B → α × FMap (BitVec 32) (Value G B)) :
    Bounded k (fun _ => True) (fun s => .ok ((f s).1, { s with env := (f s).2 }) : EvalM G B α) := by
  intro s hs
  exact ⟨by simp, fun a s' hm => by cases hm; exact ⟨trivial, hs⟩⟩

theorem Bounded.pure (a : α) : Bounded k (fun _ => True) (Pure.pure a : EvalM G B α) := by
  intro s hs
  exact ⟨by simp, fun a s' hm => by cases hm; exact ⟨trivial, hs⟩⟩

theorem Bounded.fail (e : EvalErr) : Bounded k (fun _ => True) (EvalM.fail e : EvalM G B α) := by
  intro s hs
  exact ⟨by simp, fun a s' hm => by cases hm⟩

theorem Bounded.blockTop {ev : Ev G B} (h : ∀ e, Bounded k (fun _ => True) (ev e)) : ∀ items,
    Bounded k (fun _ => True) (Verif.blockTop ev items)
  | [] => .pure _
  | e :: l => by
    unfold Verif.blockTop
    split
    · exact .pure _
    · next id rhs l' heq =>
      cases heq
      exact (h rhs).bind fun v _ => (Bounded.env fun s => ((), s.env.insert id v)).bind fun _ _ => Bounded.blockTop h l
    · exact .fail _

theorem Bounded.blockInner {ev : Ev G B} (h : ∀ e, Bounded k (fun _ => True) (ev e)) : ∀ items sv,
    Bounded k (fun _ => True) (Verif.blockInner ev items sv)
  | [], sv => .pure _
  | e :: l, sv => by
    unfold Verif.blockInner
    split
    · exact .pure _
    · next sv id rhs l' heq =>
      cases heq
      exact (h rhs).bind fun v _ => (Bounded.env fun s => (Saved.note _ s.env id, s.env.insert id v)).bind fun sv' _ =>
        Bounded.blockInner h l sv'
    · exact .fail _

theorem Bounded.bindArgs : ∀ (l : List (BitVec 32 × Value G B)) (sv : Saved G B), Bounded k (fun _ => True) (Verif.bindArgs l sv)
  | [], sv => .pure _
  | (id, v) :: l, sv => by
    unfold Verif.bindArgs
    exact (Bounded.env fun s => (sv.note s.env id, s.env.insert id v)).bind fun sv' _ => Bounded.bindArgs l sv'

theorem Bounded.evalBlock {ev : Ev G B} (h : ∀ e, Bounded k (fun _ => True) (ev e)) (items : List (Expr G B)) (r : Expr G B) :
    Bounded k (fun _ => True) (Verif.evalBlock ev items r) := by
  unfold Verif.evalBlock
  refine Bounded.bind (Q := fun _ => True) (Bounded.env fun s => (s.env.isEmpty, s.env)) fun top _ => ?_
  split
  · exact (Bounded.blockTop h items).bind fun _ _ => h r
  · exact (Bounded.blockInner h items _).bind fun sv _ => (h r).bind fun v _ =>
      (Bounded.env fun s => ((), sv.restore s.env)).bind fun _ _ => .pure _

theorem Bounded.applyLam {ev : Ev G B} (h : ∀ e, Bounded k (fun _ => True) (ev e)) (f : Value G B) (args : List (Value G B)) :
    Bounded k (fun _ => True) (Verif.applyLam ev f args) := by
  unfold Verif.applyLam
  split
  · exact (Bounded.bindArgs _ _).bind fun sv _ => (h _).bind fun v _ =>
      (Bounded.env fun s => ((), sv.restore s.env)).bind fun _ _ => .pure _
  · exact .fail _
end

/-- Evaluation ends once the cost is near the limit. -/
def costLogic (W : World G B T) (C : EvalCtx G B) (k : Nat) : EvLogic W C where
  X := fun _ => True
  L := fun _ _ => True
  P := fun Q m _ => Bounded k Q m
  lift := fun {α r Q} h s hs => by
    refine ⟨?_, fun a s' hm => ?_⟩
    · cases r with
      | out => exact absurd rfl h.1
      | _ => simp [EvalM.lift]
    · obtain ⟨h1, rfl⟩ := EvalM.lift_eq_ok.1 hm
      exact ⟨h.2 a h1, hs⟩
  bind := fun h h' => h.bind h'
  addCost := by
    intro s hs
    unfold Verif.addCost
    split
    · split
      · exact ⟨by simp, by simp⟩
      · exact ⟨by simp, fun a s' hm => by cases hm; exact ⟨trivial, Nat.le_succ_of_le hs⟩⟩
    · exact ⟨by simp, fun a s' hm => by cases hm; exact ⟨trivial, Nat.le_succ_of_le hs⟩⟩
  useVar := by
    intro id t _ s hs
    unfold Verif.useVar
    split
    · exact ⟨by simp, fun a s' hm => by cases hm; exact ⟨allLam_true _, hs⟩⟩
    · exact ⟨by simp, by simp⟩
  withArg := fun {α Q m m' id arg} _ h => by
    intro s hs
    obtain ⟨h1, h2⟩ := h { s with env := s.env.insert id arg } hs
    unfold Verif.withArg
    split
    · next a s' hm =>
      refine ⟨by simp, fun b s2 hm2 => ?_⟩
      cases hm2
      have := h2 _ _ hm
      exact ⟨this.1, this.2⟩
    · exact ⟨by simp, by simp⟩
    · exact ⟨by simp, by simp⟩
    · next hm => exact absurd hm h1
  child := fun _ _ => trivial
  func := fun _ => trivial
  lam := fun _ => trivial
  block := fun h _ => (Bounded.evalBlock (fun e => (h e trivial).mono fun _ _ => trivial) _ _).mono fun a _ => allLam_true a
  apply := fun h _ _ => (Bounded.applyLam (fun e => (h e trivial).mono fun _ _ => trivial) _ _).mono fun a _ => allLam_true a
  deserC := fun _ _ => trivial
  deserR := fun _ _ => trivial

theorem eval_bounded (W : World G B T) (C : EvalCtx G B) (L : Nat) (hL : C.limit = some L) : ∀ (n : Nat) (k : Nat) (e : Expr G B),
    L < n + k → 0 < n → Bounded k (AllLam fun _ _ => True) (eval W C n e)
  | 0, _, _, _, h0 => absurd h0 (by simp)
  | n + 1, k, e, h, _ => by
    intro s hs
    rw [eval_succ, hL]
    by_cases hc : s.cost + 1 > L
    · have : (addCost (some L) : EvalM G B Unit) s = .err .cost := by unfold addCost; dsimp only; rw [if_pos hc]
      rw [EvalM.bind_err this]
      exact ⟨by simp, by simp⟩
    · have : (addCost (some L) : EvalM G B Unit) s = .ok ((), { s with cost := s.cost + 1 }) := by unfold addCost; dsimp only; rw [if_neg hc]
      rw [EvalM.bind_ok this]
      have hst := EvLogic.step (K := costLogic W C (s.cost + 1)) (ev := eval W C n) (ev' := eval W C n)
        (fun e _ => eval_bounded W C L hL n (s.cost + 1) e (by omega) (by omega)) e trivial { s with cost := s.cost + 1 } (Nat.le_refl _)
      exact ⟨hst.1, fun a s' hm => ⟨(hst.2 a s' hm).1, by have := (hst.2 a s' hm).2; omega⟩⟩

end Verif
