import Verif.Proofs.Typing
import Verif.Spec.Denotation

set_option linter.unusedSimpArgs false
set_option linter.unusedVariables false

/-!
# The interpreter computes the meaning of typed scripts
-/

namespace Verif
open Spec
variable {G B T α β γ : Type}

/-! ## Basic facts on values -/

section
variable {ok : B → Prop} {L : List (BitVec 32 × SType) → Expr G B → Prop}

theorem asBool_eq (v : Value G B) : v.asBool = truth v := by cases v <;> rfl

theorem asColl_eq {v : Value G B} {t : SType} (h : HasTy ok L v (.coll t)) :
    ∃ l, v.asColl = .ok (t, l) ∧ itemsOf t v = .ok l ∧ collItems v = .ok l ∧ ∀ x ∈ l, HasTy ok L x t := by
  cases h with
  | bytes b =>
    refine ⟨b.map .byte, rfl, ?_, rfl, ?_⟩
    · show (if SType.byte.beq .byte then Pure.pure (b.map Value.byte) else .err .unexpectedValue : Res (List (Value G B))) = _
      rw [if_pos ((SType.beq_iff _ _).2 rfl)]
      rfl
    · intro x hx
      obtain ⟨c, _, rfl⟩ := List.mem_map.1 hx
      exact .byte c
  | coll _ l ht h =>
    refine ⟨l, rfl, ?_, rfl, h⟩
    show (if t.beq t then Pure.pure l else .err .unexpectedValue : Res (List (Value G B))) = _
    rw [if_pos ((SType.beq_iff _ _).2 rfl)]
    rfl

theorem fromVec_eq {t : SType} : ∀ {l : List (Value G B)}, (∀ x ∈ l, HasTy ok L x t) → Value.fromVec t l = .ok (collOf t l) := by
  intro l h
  by_cases ht : t = .byte
  · subst ht
    have : Res.mapAll Value.asByte l = .ok (byteItems l) := by
      induction l with
      | nil => rfl
      | cons x l ih =>
        have hx := h x (List.mem_cons_self ..)
        cases hx with
        | byte c =>
          show (Res.mapAll Value.asByte l >>= fun bs => Pure.pure (c :: bs)) = _
          rw [ih fun y hy => h y (List.mem_cons_of_mem _ hy)]
          rfl
    show (Res.mapAll Value.asByte l >>= fun b => Pure.pure (Value.collByte b)) = _
    rw [this]
    unfold collOf
    rw [if_pos ((SType.beq_iff _ _).2 rfl)]
    rfl
  · unfold collOf
    rw [if_neg (by rw [SType.beq_iff]; exact ht)]
    unfold Value.fromVec
    split
    · exact absurd rfl ht
    · rfl

theorem isFuncTy_noFunc {t : SType} (h : NoFunc t) : isFuncTy t = false := by
  cases t <;> first | rfl | exact absurd h (by simp [NoFunc])

end

/-- The meaning is this value. -/
def IsVal (v : Value G B) (d : Den G B) : Prop := d = .val v

/-! ## The same result -/

/-- From states with `P` the routine gives what is meant, up to `R`; or it runs out of nesting budget. -/
def Means (P : EvalSt G B → Prop) (R : α → β → Prop) (m : EvalM G B α) (r : Res β) : Prop :=
  ∀ s, P s → match m s with
    | .ok (a, s') => (∃ b, r = .ok b ∧ R a b) ∧ P s'
    | .err x => r = .err x
    | .panic => r = .panic
    | .out => True

namespace Means
variable {P : EvalSt G B → Prop}

theorem bind {δ : Type} {R : α → β → Prop} {R' : γ → δ → Prop} {m : EvalM G B α} {r : Res β} {f : α → EvalM G B γ} {g : β → Res δ}
    (h : Means P R m r) (h' : ∀ a b, R a b → Means P R' (f a) (g b)) : Means P R' (m >>= f) (r >>= g) := by
  intro s hs
  have := h s hs
  cases hm : m s with
  | ok p =>
    obtain ⟨a, s1⟩ := p
    rw [hm] at this
    obtain ⟨⟨b, rfl, hR⟩, hs1⟩ := this
    rw [EvalM.bind_ok hm]
    exact h' a b hR s1 hs1
  | err e => rw [hm] at this; rw [EvalM.bind_err hm]; subst this; rfl
  | panic => rw [hm] at this; rw [EvalM.bind_panic hm]; subst this; rfl
  | out => rw [EvalM.bind_out hm]; trivial

theorem mono {R R' : α → β → Prop} {m : EvalM G B α} {r : Res β} (h : Means P R m r) (hr : ∀ a b, R a b → R' a b) : Means P R' m r := by
  intro s hs
  have := h s hs
  cases hm : m s with
  | ok p => obtain ⟨a, s1⟩ := p; rw [hm] at this; obtain ⟨⟨b, h1, h2⟩, h3⟩ := this; exact ⟨⟨b, h1, hr _ _ h2⟩, h3⟩
  | err e => rw [hm] at this; exact this
  | panic => rw [hm] at this; exact this
  | out => trivial

/-- More is computed from what is meant. -/
theorem post {R : α → β → Prop} {R' : α → γ → Prop} {m : EvalM G B α} {r : Res β} {g : β → Res γ} (h : Means P R m r)
    (h' : ∀ a b, R a b → ∃ c, g b = .ok c ∧ R' a c) : Means P R' m (r >>= g) := by
  intro s hs
  have := h s hs
  cases hm : m s with
  | ok p =>
    obtain ⟨a, s1⟩ := p
    rw [hm] at this
    obtain ⟨⟨b, rfl, h2⟩, h3⟩ := this
    exact ⟨h' a b h2, h3⟩
  | err e => rw [hm] at this; subst this; rfl
  | panic => rw [hm] at this; subst this; rfl
  | out => trivial

theorem lift {R : α → β → Prop} {r : Res α} {g : α → Res β} (h : ∀ a, r = .ok a → ∃ b, g a = .ok b ∧ R a b) :
    Means (G := G) P R (EvalM.lift r) (r >>= g) := by
  intro s hs
  cases r with
  | ok a => exact ⟨h a rfl, hs⟩
  | err e => rfl
  | panic => rfl
  | out => trivial

theorem lift' {R : α → α → Prop} {r : Res α} (h : ∀ a, r = .ok a → R a a) : Means (G := G) P R (EvalM.lift r) r := by
  intro s hs
  cases r with
  | ok a => exact ⟨⟨a, rfl, h a rfl⟩, hs⟩
  | err e => rfl
  | panic => rfl
  | out => trivial

theorem pure {R : α → β → Prop} {a : α} {b : β} (h : R a b) : Means (G := G) P R (Pure.pure a) (.ok b) := fun s hs => ⟨⟨b, rfl, h⟩, hs⟩
theorem fail {R : α → β → Prop} {e : EvalErr} : Means (G := G) P R (EvalM.fail e) (.err e) := fun s hs => rfl

/-- With what is known about the results of the routine. -/
theorem typed {R : α → β → Prop} {m : EvalM G B α} {r : Res β} {P' : EvalSt G B → Prop} {N strict : Prop} {Q : α → Prop}
    (h : Means P R m r) (hp : ∀ s, P s → P' s) (h' : Run P' N strict Q m) : Means P (fun a b => Q a ∧ R a b) m r := by
  intro s hs
  have h1 := h s hs
  have h2 := h' s (hp s hs)
  cases hm : m s with
  | ok p =>
    obtain ⟨a, s1⟩ := p
    rw [hm] at h1 h2
    obtain ⟨⟨b, e, hR⟩, h3⟩ := h1
    exact ⟨⟨b, e, h2.1, hR⟩, h3⟩
  | err e => rw [hm] at h1; exact h1
  | panic => rw [hm] at h1; exact h1
  | out => trivial

end Means

/-! ## Scopes and their meanings -/

section Steps
variable [DecidableEq G] [DecidableEq B] [DecidableEq (Value G B)] {W : World G B T} {C : EvalCtx G B} {D : Decls B}
  {code : Expr G B → Res (Den G B)}

variable (W C D code) in
/-- A function value and the function it means: the function of the text, in the scope in which it was defined. -/
def RelF (Γ : List Local) (ρ : DEnv G B) (v : Value G B) (f : Fn G B) : Prop :=
  ∃ args body Γ1 Γ2 ρ1 ρ2, v = .lam args body ∧ Γ = Γ1 ++ Γ2 ∧ ρ = ρ1 ++ ρ2 ∧ Γ1.length = ρ1.length ∧
    Typed D (er Γ2) (.func args body) ∧ FirstOrder (.func args body) ∧
    f = fun vs => value (den W C code (bindAll args vs ρ2) body)

variable (W C D code) in
/-- A value and its meaning. -/
def RelD (Γ : List Local) (ρ : DEnv G B) (t : SType) (v : Value G B) (d : Den G B) : Prop :=
  if isFuncTy t then ∃ f, d = .fn f ∧ RelF W C D code Γ ρ v f else d = .val v

variable (W C D code) in
/-- The variables hold the values that are meant. -/
inductive Match (env : FMap (BitVec 32) (Value G B)) : List Local → DEnv G B → Prop where
  | nil : Match env [] []
  | cons {x : Local} {Γ : List Local} {ρ : DEnv G B} {v : Value G B} {d : Den G B} (h : Match env Γ ρ) (hg : env.get x.id = some v)
    (hr : RelD W C D code Γ ρ x.tpe v d) (hf : x.id ∉ (er Γ).map Prod.fst) : Match env (x :: Γ) ((x.id, d) :: ρ)

theorem RelF.up {Γ Γ' : List Local} {ρ ρ' : DEnv G B} (hl : Γ'.length = ρ'.length) {v : Value G B} {f : Fn G B}
    (h : RelF W C D code Γ ρ v f) : RelF W C D code (Γ' ++ Γ) (ρ' ++ ρ) v f := by
  obtain ⟨args, body, Γ1, Γ2, ρ1, ρ2, h1, rfl, rfl, h2, h3⟩ := h
  exact ⟨args, body, Γ' ++ Γ1, Γ2, ρ' ++ ρ1, ρ2, h1, by simp, by simp, by simp [hl, h2], h3⟩

theorem RelD.up {Γ Γ' : List Local} {ρ ρ' : DEnv G B} (hl : Γ'.length = ρ'.length) {t : SType} {v : Value G B} {d : Den G B}
    (h : RelD W C D code Γ ρ t v d) : RelD W C D code (Γ' ++ Γ) (ρ' ++ ρ) t v d := by
  unfold RelD at h ⊢
  split
  · rw [if_pos (by assumption)] at h
    obtain ⟨f, h1, h2⟩ := h
    exact ⟨f, h1, h2.up hl⟩
  · rw [if_neg (by assumption)] at h
    exact h

theorem Match.congr {env env' : FMap (BitVec 32) (Value G B)} (he : SameBindings env' env) {Γ : List Local} {ρ : DEnv G B}
    (h : Match W C D code env Γ ρ) : Match W C D code env' Γ ρ := by
  induction h with
  | nil => exact .nil
  | cons _ hg hr hf ih => exact .cons ih (by rw [he]; exact hg) hr hf

theorem Match.length {env : FMap (BitVec 32) (Value G B)} {Γ : List Local} {ρ : DEnv G B} (h : Match W C D code env Γ ρ) :
    Γ.length = ρ.length := by
  induction h with
  | nil => rfl
  | cons _ _ _ _ ih => simp [ih]

theorem Match.drop {env : FMap (BitVec 32) (Value G B)} : ∀ {Γ1 Γ2 : List Local} {ρ1 ρ2 : DEnv G B}, Γ1.length = ρ1.length →
    Match W C D code env (Γ1 ++ Γ2) (ρ1 ++ ρ2) → Match W C D code env Γ2 ρ2
  | [], Γ2, [], ρ2, _, h => h
  | x :: Γ1, Γ2, (i, d) :: ρ1, ρ2, hl, h => by
    cases h with
    | cons h hg hr hf => exact Match.drop (by simpa using hl) h

theorem Match.other {env : FMap (BitVec 32) (Value G B)} {Γ : List Local} {ρ : DEnv G B} {id : BitVec 32} {v : Value G B}
    (h : Match W C D code env Γ ρ) (hf : id ∉ (er Γ).map Prod.fst) : Match W C D code (env.insert id v) Γ ρ := by
  induction h with
  | nil => exact .nil
  | @cons x Γ ρ v d _ hg hr hf' ih =>
    simp only [er, List.map_cons, List.mem_cons, not_or] at hf
    refine .cons (ih hf.2) ?_ hr hf'
    rw [get_insert', if_neg (fun e => hf.1 e.symm)]
    exact hg

theorem Match.push {env : FMap (BitVec 32) (Value G B)} {Γ : List Local} {ρ : DEnv G B} {x : Local} {v : Value G B} {d : Den G B}
    (h : Match W C D code env Γ ρ) (hf : x.id ∉ (er Γ).map Prod.fst) (hr : RelD W C D code Γ ρ x.tpe v d) :
    Match W C D code (env.insert x.id v) (x :: Γ) ((x.id, d) :: ρ) :=
  .cons (h.other hf) (by rw [get_insert', if_pos rfl]) hr hf

theorem Match.lookup {env : FMap (BitVec 32) (Value G B)} {Γ : List Local} {ρ : DEnv G B} (h : Match W C D code env Γ ρ)
    {id : BitVec 32} {t : SType} (hm : (id, t) ∈ er Γ) :
    ∃ v d, env.get id = some v ∧ Spec.lookup ρ id = .ok d ∧ RelD W C D code Γ ρ t v d := by
  induction h with
  | nil => simp [er] at hm
  | @cons x Γ ρ v d h hg hr hf ih =>
    have e1 : x :: Γ = [x] ++ Γ := rfl
    have e2 : (x.id, d) :: ρ = [(x.id, d)] ++ ρ := rfl
    simp only [er, List.map_cons, List.mem_cons] at hm
    rcases hm with hm | hm
    · cases hm
      refine ⟨v, d, hg, by simp [Spec.lookup], ?_⟩
      rw [e1, e2]
      exact hr.up rfl
    · obtain ⟨v', d', h1, h2, h3⟩ := ih hm
      refine ⟨v', d', h1, ?_, ?_⟩
      · have : x.id ≠ id := by
          rintro rfl
          exact hf (List.mem_map.2 ⟨_, hm, rfl⟩)
        simp only [Spec.lookup, if_neg this]
        exact h2
      · rw [e1, e2]
        exact h3.up rfl

variable (W C D code) in
/-- The state fits the scope and its meaning. -/
def InScope (Γ : List Local) (ρ : DEnv G B) (s : EvalSt G B) : Prop := ScopeInv D False 0 Γ s ∧ Match W C D code s.env Γ ρ

theorem InScope.keep {Γ : List Local} {ρ : DEnv G B} {Q Q' : α → Prop} {m : EvalM G B α} (h1 : Keeps (typedClass D) Q m)
    (h2 : KeepsTidy (typedClass D) Q' m) {s s' : EvalSt G B} {a : α} (hs : InScope W C D code Γ ρ s) (hm : m s = .ok (a, s')) :
    InScope W C D code Γ ρ s' := by
  refine ⟨hs.1.keep h1 h2 hm, ?_⟩
  cases Γ with
  | nil =>
    have := hs.2
    cases this
    exact .nil
  | cons x Γ =>
    obtain ⟨v, hv, _⟩ := hs.1.1 [] x Γ rfl
    exact hs.2.congr (h1 s a s' ⟨⟨_, v, hv⟩, hs.1.2⟩ hm).2

/-! ## Steps of the interpreter -/

variable (W C D code) in
/-- Typed scripts compute their meaning with `n` nested calls. -/
def Agree (n : Nat) : Prop := ∀ (Γ : List Local) (ρ : DEnv G B) (e : Expr G B), Typed D (er Γ) e → FirstOrder e →
  Means (InScope W C D code Γ ρ) (RelD W C D code Γ ρ e.tpe) (eval W C n e) (den W C code ρ e)

variable {n : Nat} {Γ : List Local} {ρ : DEnv G B}

local notation "V" => HasTy D.box (LamOk D False 0 Γ 0)
local notation "S" => Means (InScope W C D code Γ ρ)

theorem hasTy_any {k : Nat} {v : Value G B} {t : SType} (h : HasTy D.box (LamOk D False 0 Γ k) v t) : V v t :=
  h.mono fun _ _ ⟨Γ1, Γ2, h1, h2, _⟩ => ⟨Γ1, Γ2, h1, h2, fun hf => hf.elim⟩

/-- The operand and its type. -/
theorem Agree.sub (h : Agree W C D code n) (hs : Sound D False 0 W C False n) {e : Expr G B} (he : Typed D (er Γ) e) (hF : FirstOrder e)
    {t : SType} (ht : e.tpe = t) :
    S (fun v d => V v t ∧ RelD W C D code Γ ρ t v d) (eval W C n e) (den W C code ρ e) := by
  subst ht
  exact ((h Γ ρ e he hF).typed (fun s hs => hs.1) (hs Γ e he)).mono fun a b hab => ⟨hasTy_any hab.1, hab.2⟩

/-- An operand that is a value. -/
theorem Agree.val (h : Agree W C D code n) (hs : Sound D False 0 W C False n) {e : Expr G B} (he : Typed D (er Γ) e) (hF : FirstOrder e)
    {t : SType} (ht : e.tpe = t) (hn : isFuncTy t = false) :
    S (fun v w => V v t ∧ w = v) (eval W C n e) (value (den W C code ρ e)) :=
  (h.sub hs he hF ht).post fun v d ⟨hv, hd⟩ => by
    unfold RelD at hd
    rw [hn] at hd
    subst hd
    exact ⟨v, rfl, hv, rfl⟩

/-- An operand that is a function. -/
theorem Agree.fn (h : Agree W C D code n) (hs : Sound D False 0 W C False n) {e : Expr G B} (he : Typed D (er Γ) e) (hF : FirstOrder e)
    {ts : List SType} {r : SType} (ht : e.tpe = .func ts r []) :
    S (fun v f => V v (.func ts r []) ∧ RelF W C D code Γ ρ v f) (eval W C n e) (func (den W C code ρ e)) :=
  (h.sub hs he hF ht).post fun v d ⟨hv, hd⟩ => by
    unfold RelD at hd
    rw [if_pos (show isFuncTy (.func ts r []) = true from rfl)] at hd
    obtain ⟨f, rfl, hf⟩ := hd
    exact ⟨f, rfl, hv, hf⟩

/-- Operands that are values. -/
theorem Agree.all (h : Agree W C D code n) (hs : Sound D False 0 W C False n) : ∀ (l : List (Expr G B)), (∀ e ∈ l, Typed D (er Γ) e) →
    (∀ e ∈ l, FirstOrder e) → (∀ e ∈ l, isFuncTy e.tpe = false) →
    S (fun vs ws => HasTys D.box (LamOk D False 0 Γ 0) vs (Expr.tpes l) ∧ ws = vs) (evalAll (eval W C n) l) (values (dens W C code ρ l))
  | [], _, _, _ => by
    unfold dens values
    exact Means.pure ⟨List.Forall₂.nil, rfl⟩
  | e :: l, he, hF, hn => by
    unfold dens values
    refine Means.bind (h.val hs (he e (List.mem_cons_self ..)) (hF e (List.mem_cons_self ..)) rfl (hn e (List.mem_cons_self ..)))
      fun v w ⟨hv, hw⟩ => ?_
    subst hw
    refine Means.bind (Agree.all h hs l (fun x hx => he x (List.mem_cons_of_mem _ hx)) (fun x hx => hF x (List.mem_cons_of_mem _ hx))
      (fun x hx => hn x (List.mem_cons_of_mem _ hx))) fun vs ws ⟨hvs, hws⟩ => ?_
    subst hws
    exact Means.pure ⟨List.Forall₂.cons hv hvs, rfl⟩


/-- The arguments of a call. -/
theorem match_params {L : List (BitVec 32 × SType) → Expr G B → Prop} : ∀ (args : List (BitVec 32 × SType)) (vs : List (Value G B))
    (env : FMap (BitVec 32) (Value G B)), HasTys D.box L vs (args.map Prod.snd) → (args.map Prod.fst).Nodup →
    (∀ a ∈ args, a.1 ∉ (er Γ).map Prod.fst) → (∀ a ∈ args, NoFunc a.2) → Match W C D code env Γ ρ →
    Match W C D code (((args.map Prod.fst).zip vs).foldl (fun m p => FMap.insert m p.1 p.2) env) (params args ++ Γ) (bindAll args vs ρ)
  | [], vs, env, hv, hn, hf, ha, hs => hs
  | (id, t) :: args, vs, env, hv, hn, hf, ha, hs => by
    obtain ⟨v, vs', rfl, hv1, hv2⟩ := hv.cons
    have hn' := List.nodup_cons.1 hn
    refine Match.cons (x := ⟨id, t, 0⟩) (v := v) (d := .val v) (match_params args vs' _ hv2 hn'.2 (fun a h => hf a (List.mem_cons_of_mem _ h))
      (fun a h => ha a (List.mem_cons_of_mem _ h)) (hs.other (hf _ (List.mem_cons_self ..)))) ?_ ?_ ?_
    · rw [List.map_cons, List.zip_cons_cons, List.foldl_cons, get_foldl_other, get_insert', if_pos rfl]
      intro hc
      obtain ⟨p, hp, e⟩ := List.mem_map.1 hc
      have e : p.1 = id := e
      have := (List.of_mem_zip (a := p.1) (b := p.2) hp).1
      rw [e] at this
      exact hn'.1 this
    · unfold RelD
      rw [isFuncTy_noFunc (ha (id, t) (List.mem_cons_self ..))]
      rfl
    · show id ∉ (er (params args ++ Γ)).map Prod.fst
      rw [er_params, List.map_append, List.mem_append, not_or]
      exact ⟨hn'.1, hf _ (List.mem_cons_self ..)⟩

/-- A call with arguments. -/
theorem Agree.apply (h : Agree W C D code n) (hso : Sound D False 0 W C False n) (hW : Honours D W C) {v : Value G B} {f : Fn G B}
    {vs : List (Value G B)} {ts : List SType} {r : SType} (hv : V v (.func ts r [])) (hf : RelF W C D code Γ ρ v f)
    (ha : HasTys D.box (LamOk D False 0 Γ 0) vs ts) :
    S (fun v w => V v r ∧ w = v) (applyLam (eval W C n) v vs) (f vs) := by
  have hrun := hso.apply (k := 0) hW hv ha
  suffices Means (InScope W C D code Γ ρ) (fun v w => w = v) (applyLam (eval W C n) v vs) (f vs) from
    this.typed (fun s hs => hs.1) hrun
  obtain ⟨args, body, Γ1, Γ2, ρ1, ρ2, rfl, rfl, rfl, hl, hT, hF, rfl⟩ := hf
  generalize hFt : SType.func ts r [] = ft at hv
  cases hv with
  | lam _ _ hlam0 =>
    injection hFt with h1 h2 _
    subst h1 h2
    cases hT with
    | func _ _ _ hn hfr hna hnb hbody =>
      have hb' : Typed D (er (params args ++ Γ2)) body := by rw [er_params]; exact hbody
      intro s hs
      have hvs : ∀ v ∈ vs, AllLam (typedClass (G := G) D).L v := fun v hv => by
        obtain ⟨t, ht⟩ := hasTys_mem ha v hv
        exact hasTy_tidy ht
      have hs1 : InScope W C D code (params args ++ Γ2) (bindAll args vs ρ2)
          { s with env := ((args.map Prod.fst).zip vs).foldl (fun m p => FMap.insert m p.1 p.2) s.env } :=
        ⟨⟨envOk_params args vs _ ha hn hfr hna hs.1.1.drop,
          tidyEnv_params _ _ (fun p hp => hvs _ (List.of_mem_zip (a := p.1) (b := p.2) hp).2) hs.1.2⟩,
          match_params args vs _ ha hn hfr hna (Match.drop hl hs.2)⟩
      have hi := h _ _ body hb' (hF.child (by simp [children])) _ hs1
      have hlam : AllLam (typedClass (G := G) D).L (.lam args body) := hasTy_tidy (HasTy.lam (okBox := D.box) args body hlam0)
      have hkeep : ∀ a s', applyLam (eval W C n) (.lam args body) vs s = .ok (a, s') → InScope W C D code (Γ1 ++ Γ2) (ρ1 ++ ρ2) s' :=
        fun a s' he => InScope.keep (EvLogic.applyLam (keepL_rel hW n) hlam hvs) (EvLogic.applyLam (tidyL_rel hW n) hlam hvs) hs he
      obtain ⟨sv, hsv⟩ := bindArgs_run ((args.map Prod.fst).zip vs) { existing := [], news := [] } s
      have hc : applyLam (eval W C n) (.lam args body) vs s = (eval W C n body >>= fun v => restoreEnv sv >>= fun _ => pure v)
          { s with env := ((args.map Prod.fst).zip vs).foldl (fun m p => FMap.insert m p.1 p.2) s.env } := by
        dsimp only [applyLam]
        rw [EvalM.bind_ok hsv]
      cases he : eval W C n body { s with env := ((args.map Prod.fst).zip vs).foldl (fun m p => FMap.insert m p.1 p.2) s.env } with
      | ok p =>
        obtain ⟨a, s1⟩ := p
        rw [he] at hi
        rw [EvalM.bind_ok he] at hc
        have hk := hkeep a _ hc
        rw [hc]
        obtain ⟨⟨d, hd, hr⟩, _⟩ := hi
        unfold RelD at hr
        rw [isFuncTy_noFunc hnb] at hr
        subst hr
        refine ⟨⟨a, ?_, rfl⟩, hk⟩
        show value _ = _
        rw [hd]
        rfl
      | err x =>
        rw [he] at hi
        rw [hc, EvalM.bind_err he]
        show value _ = _
        rw [hi]
        rfl
      | panic =>
        rw [he] at hi
        rw [hc, EvalM.bind_panic he]
        show value _ = _
        rw [hi]
        rfl
      | out => rw [hc, EvalM.bind_out he]; trivial

/-- A call with one argument. -/
theorem Agree.call (h : Agree W C D code n) (hso : Sound D False 0 W C False n) (hW : Honours D W C) {v arg : Value G B} {f : Fn G B}
    {t r : SType} (hv : V v (.func [t] r [])) (hf : RelF W C D code Γ ρ v f) (ha : V arg t) :
    S (fun v w => V v r ∧ w = v) (callLam (eval W C n) v arg) (f [arg]) := by
  have hrun := hso.call (k := 0) hW hv ha
  suffices Means (InScope W C D code Γ ρ) (fun v w => w = v) (callLam (eval W C n) v arg) (f [arg]) from
    this.typed (fun s hs => hs.1) hrun
  obtain ⟨args, body, Γ1, Γ2, ρ1, ρ2, rfl, rfl, rfl, hl, hT, hF, rfl⟩ := hf
  generalize hFt : SType.func [t] r [] = ft at hv
  cases hv with
  | lam _ _ hlam0 =>
    injection hFt with h1 h2 _
    match args, h1 with
    | [(id, t')], h1 =>
      have ht : t = t' := by simpa using h1
      subst ht
      cases hT with
      | func _ _ _ hn hfr hna hnb hbody =>
        have hb' : Typed D (er (⟨id, t, 0⟩ :: Γ2)) body := hbody
        intro s hs
        have hs1 : InScope W C D code (⟨id, t, 0⟩ :: Γ2) ((id, .val arg) :: ρ2) { s with env := s.env.insert id arg } :=
          ⟨⟨hs.1.1.drop.push (ha.noFunc (hna (id, t) (List.mem_cons_self ..))) (hfr (id, t) (List.mem_cons_self ..)),
            hs.1.2.insert id (hasTy_tidy ha)⟩, Match.push (x := ⟨id, t, 0⟩) (Match.drop hl hs.2) (hfr (id, t) (List.mem_cons_self ..)) (by
              unfold RelD
              rw [isFuncTy_noFunc (hna (id, t) (List.mem_cons_self ..))]
              rfl)⟩
        have hi := h _ _ body hb' (hF.child (by simp [children])) _ hs1
        have hlam : AllLam (typedClass (G := G) D).L (.lam [(id, t)] body) :=
          hasTy_tidy (HasTy.lam (okBox := D.box) [(id, t)] body hlam0)
        have hkeep : ∀ a s', callLam (eval W C n) (.lam [(id, t)] body) arg s = .ok (a, s') →
            InScope W C D code (Γ1 ++ Γ2) (ρ1 ++ ρ2) s' := fun a s' he =>
          InScope.keep (EvLogic.callLam (keepL_rel hW n) hlam (hasTy_tidy ha)) (EvLogic.callLam (tidyL_rel hW n) hlam (hasTy_tidy ha)) hs he
        have hc : callLam (eval W C n) (.lam [(id, t)] body) arg s = withArg id arg (eval W C n body) s := rfl
        cases he : eval W C n body { s with env := s.env.insert id arg } with
        | ok p =>
          obtain ⟨a, s1⟩ := p
          rw [he] at hi
          obtain ⟨s2, this⟩ : ∃ s2, callLam (eval W C n) (.lam [(id, t)] body) arg s = .ok (a, s2) :=
            ⟨_, by rw [hc]; unfold withArg; rw [he]⟩
          have hk := hkeep _ _ this
          rw [this]
          obtain ⟨⟨d, hd, hr⟩, _⟩ := hi
          unfold RelD at hr
          rw [isFuncTy_noFunc hnb] at hr
          subst hr
          refine ⟨⟨a, ?_, rfl⟩, hk⟩
          show value (den W C code ((id, .val arg) :: ρ2) body) = _
          rw [hd]
          rfl
        | err x =>
          rw [he] at hi
          have : callLam (eval W C n) (.lam [(id, t)] body) arg s = .err x := by rw [hc]; unfold withArg; rw [he]
          rw [this]
          show value (den W C code ((id, .val arg) :: ρ2) body) = _
          rw [hi]
          rfl
        | panic =>
          rw [he] at hi
          have : callLam (eval W C n) (.lam [(id, t)] body) arg s = .panic := by rw [hc]; unfold withArg; rw [he]
          rw [this]
          show value (den W C code ((id, .val arg) :: ρ2) body) = _
          rw [hi]
          rfl
        | out =>
          have : callLam (eval W C n) (.lam [(id, t)] body) arg s = .out := by rw [hc]; unfold withArg; rw [he]
          rw [this]; trivial

/-- The definitions of a block. -/
theorem Agree.defs (h : Agree W C D code n) (hso : Sound D False 0 W C False n) : ∀ (ds : List (BitVec 32 × Expr G B)) (Γ : List Local)
    (ρ : DEnv G B),
    (∀ pre d post, ds = pre ++ d :: post → Typed D ((er Γ).define pre) d.2) →
    (∀ pre d post, ds = pre ++ d :: post → d.1 ∉ ((er Γ).define pre).map Prod.fst) →
    (∀ d ∈ ds, FirstOrder d.2) → ∀ s, InScope W C D code Γ ρ s →
    (match blockTop (eval W C n) (ds.map fun d => .valDef d.1 d.2) s with
      | .ok (_, s') => ∃ ρ', Spec.defs W C code ρ (ds.map fun d => .valDef d.1 d.2) = .ok ρ' ∧ InScope W C D code (extend 0 Γ ds) ρ' s'
      | .err x => Spec.defs W C code ρ (ds.map fun d => .valDef d.1 d.2) = .err x
      | .panic => Spec.defs W C code ρ (ds.map fun d => .valDef d.1 d.2) = .panic
      | .out => True) ∧
    ∀ sv, (match blockInner (eval W C n) (ds.map fun d => .valDef d.1 d.2) sv s with
      | .ok (_, s') => ∃ ρ', Spec.defs W C code ρ (ds.map fun d => .valDef d.1 d.2) = .ok ρ' ∧ InScope W C D code (extend 0 Γ ds) ρ' s'
      | .err x => Spec.defs W C code ρ (ds.map fun d => .valDef d.1 d.2) = .err x
      | .panic => Spec.defs W C code ρ (ds.map fun d => .valDef d.1 d.2) = .panic
      | .out => True)
  | [], Γ, ρ, hd, hf, hF, s, hs => ⟨⟨ρ, rfl, hs⟩, fun sv => ⟨ρ, rfl, hs⟩⟩
  | d :: ds, Γ, ρ, hd, hf, hF, s, hs => by
    have hi := h Γ ρ d.2 (hd [] d ds rfl) (hF d (List.mem_cons_self ..)) s hs
    have hi' := hso Γ d.2 (hd [] d ds rfl) s hs.1
    have hdef : Spec.defs W C code ρ ((d :: ds).map fun d => .valDef d.1 d.2) = (den W C code ρ d.2 >>= fun x =>
      Spec.defs W C code ((d.1, x) :: ρ) (ds.map fun d => .valDef d.1 d.2)) := by
      rw [List.map_cons, Spec.defs]
    rw [hdef]
    simp only [List.map_cons]
    unfold blockTop blockInner
    cases he : eval W C n d.2 s with
    | ok p =>
      obtain ⟨v, s1⟩ := p
      rw [he] at hi hi'
      obtain ⟨⟨x, hx, hr⟩, hs1⟩ := hi
      obtain ⟨h1, h2⟩ := Agree.defs h hso ds (⟨d.1, d.2.tpe, weight 0 d.2 + top Γ⟩ :: Γ) ((d.1, x) :: ρ)
        (fun pre x post e => hd (d :: pre) x post (by rw [e]; rfl))
        (fun pre x post e => hf (d :: pre) x post (by rw [e]; rfl)) (fun y hy => hF y (List.mem_cons_of_mem _ hy))
        { s1 with env := s1.env.insert d.1 v }
        ⟨⟨hs1.1.1.push hi'.1 (hf [] d ds rfl), hs1.1.2.insert _ (hasTy_tidy hi'.1)⟩,
          Match.push (x := ⟨d.1, d.2.tpe, weight 0 d.2 + top Γ⟩) hs1.2 (hf [] d ds rfl) hr⟩
      rw [hx]
      refine ⟨?_, fun sv => ?_⟩
      · rw [EvalM.bind_ok he]; exact h1
      · rw [EvalM.bind_ok he]; exact h2 _
    | err x =>
      rw [he] at hi
      rw [hi]
      exact ⟨by rw [EvalM.bind_err he]; rfl, fun sv => by rw [EvalM.bind_err he]; rfl⟩
    | panic =>
      rw [he] at hi
      rw [hi]
      exact ⟨by rw [EvalM.bind_panic he]; rfl, fun sv => by rw [EvalM.bind_panic he]; rfl⟩
    | out => exact ⟨by rw [EvalM.bind_out he]; trivial, fun sv => by rw [EvalM.bind_out he]; trivial⟩


/-- A block. -/
theorem Agree.block (h : Agree W C D code n) (hso : Sound D False 0 W C False n) (hW : Honours D W C) {ds : List (BitVec 32 × Expr G B)}
    {r : Expr G B} (hT : Typed D (er Γ) (.block (ds.map fun d => .valDef d.1 d.2) r))
    (hd : ∀ pre d post, ds = pre ++ d :: post → Typed D ((er Γ).define pre) d.2)
    (hf : ∀ pre d post, ds = pre ++ d :: post → d.1 ∉ ((er Γ).define pre).map Prod.fst) (hr : Typed D ((er Γ).define ds) r)
    (hn : NoFunc r.tpe) (hFd : ∀ d ∈ ds, FirstOrder d.2) (hFr : FirstOrder r) :
    S IsVal (evalBlock (eval W C n) (ds.map fun d => .valDef d.1 d.2) r)
      (Spec.defs W C code ρ (ds.map fun d => .valDef d.1 d.2) >>= fun ρ' => den W C code ρ' r) := by
  intro s hs
  have hkeep : ∀ a s', evalBlock (eval W C n) (ds.map fun d => .valDef d.1 d.2) r s = .ok (a, s') → InScope W C D code Γ ρ s' :=
    fun a s' he => InScope.keep ((keepL hW).block (keepL_rel hW n) hT.tidy) ((tidyL hW).block (tidyL_rel hW n) hT.tidy) hs he
  obtain ⟨h1, h2⟩ := Agree.defs h hso ds Γ ρ hd hf hFd s hs
  have hi : ∀ ρ' s1, InScope W C D code (extend 0 Γ ds) ρ' s1 → _ := fun ρ' s1 hs1 =>
    h (extend 0 Γ ds) ρ' r (by rw [er_extend]; exact hr) hFr s1 hs1
  have hc : ∀ s : EvalSt G B, evalBlock (eval W C n) (ds.map fun d => .valDef d.1 d.2) r s =
      (if s.env.isEmpty then blockTop (eval W C n) (ds.map fun d => .valDef d.1 d.2) >>= fun _ => eval W C n r
       else blockInner (eval W C n) (ds.map fun d => .valDef d.1 d.2) { existing := [], news := [] } >>= fun sv =>
        eval W C n r >>= fun v => restoreEnv sv >>= fun _ => pure v) s := fun s => rfl
  have hc := hc s
  split at hc
  · cases hb : blockTop (eval W C n) (ds.map fun d => .valDef d.1 d.2) s with
    | ok p =>
      obtain ⟨u, s1⟩ := p
      rw [hb] at h1
      rw [EvalM.bind_ok hb] at hc
      obtain ⟨ρ', hρ, h1⟩ := h1
      have hi := hi ρ' s1 h1
      rw [hρ]
      cases he : eval W C n r s1 with
      | ok q =>
        obtain ⟨v, s2⟩ := q
        rw [he] at hi hc
        have := hkeep _ _ hc
        rw [hc]
        obtain ⟨⟨d, hd, hr⟩, _⟩ := hi
        unfold RelD at hr
        rw [isFuncTy_noFunc hn] at hr
        exact ⟨⟨d, hd, hr⟩, this⟩
      | err x => rw [he] at hi hc; rw [hc]; exact hi
      | panic => rw [he] at hi hc; rw [hc]; exact hi
      | out => rw [he] at hc; rw [hc]; trivial
    | err x => rw [hb] at h1; rw [EvalM.bind_err hb] at hc; rw [hc, h1]; rfl
    | panic => rw [hb] at h1; rw [EvalM.bind_panic hb] at hc; rw [hc, h1]; rfl
    | out => rw [EvalM.bind_out hb] at hc; rw [hc]; trivial
  · have h2 := h2 { existing := [], news := [] }
    cases hb : blockInner (eval W C n) (ds.map fun d => .valDef d.1 d.2) { existing := [], news := [] } s with
    | ok p =>
      obtain ⟨sv, s1⟩ := p
      rw [hb] at h2
      rw [EvalM.bind_ok hb] at hc
      obtain ⟨ρ', hρ, h2⟩ := h2
      have hi := hi ρ' s1 h2
      rw [hρ]
      cases he : eval W C n r s1 with
      | ok q =>
        obtain ⟨v, s2⟩ := q
        rw [he] at hi
        rw [EvalM.bind_ok he] at hc
        have := hkeep v _ hc
        rw [hc]
        obtain ⟨⟨d, hd, hr⟩, _⟩ := hi
        unfold RelD at hr
        rw [isFuncTy_noFunc hn] at hr
        exact ⟨⟨d, hd, hr⟩, this⟩
      | err x => rw [he] at hi; rw [EvalM.bind_err he] at hc; rw [hc]; exact hi
      | panic => rw [he] at hi; rw [EvalM.bind_panic he] at hc; rw [hc]; exact hi
      | out => rw [EvalM.bind_out he] at hc; rw [hc]; trivial
    | err x => rw [hb] at h2; rw [EvalM.bind_err hb] at hc; rw [hc, h2]; rfl
    | panic => rw [hb] at h2; rw [EvalM.bind_panic hb] at hc; rw [hc, h2]; rfl
    | out => rw [EvalM.bind_out hb] at hc; rw [hc]; trivial

/-! ### Loops -/

theorem Agree.each (h : Agree W C D code n) (hso : Sound D False 0 W C False n) (hW : Honours D W C) {v : Value G B} {f : Fn G B}
    {t r : SType} (hv : V v (.func [t] r [])) (hf : RelF W C D code Γ ρ v f) : ∀ l : List (Value G B), (∀ x ∈ l, V x t) →
    S (fun vs ws => (∀ x ∈ vs, V x r) ∧ ws = vs) (callEach (eval W C n) v l) (eachItem (fun x => f [x]) l)
  | [], _ => Means.pure ⟨by simp, rfl⟩
  | x :: l, hl => Means.bind (h.call hso hW hv hf (hl x (List.mem_cons_self ..))) fun y z ⟨hy, hz⟩ => by
      subst hz
      refine Means.bind (Agree.each h hso hW hv hf l fun y hy => hl y (List.mem_cons_of_mem _ hy)) fun ys zs ⟨hys, hzs⟩ => ?_
      subst hzs
      refine Means.pure ⟨fun w hw => ?_, rfl⟩
      rcases List.mem_cons.1 hw with rfl | hw
      · exact hy
      · exact hys w hw

theorem Agree.conds (h : Agree W C D code n) (hso : Sound D False 0 W C False n) (hW : Honours D W C) {v : Value G B} {f : Fn G B}
    {t : SType} (hv : V v (.func [t] .bool [])) (hf : RelF W C D code Γ ρ v f) : ∀ l : List (Value G B), (∀ x ∈ l, V x t) →
    S (fun bs ws => ws = ((l.zip bs).filter fun p => p.2).map Prod.fst) (callConds (eval W C n) v l)
      (keepItems (fun x => f [x] >>= truth) l)
  | [], _ => Means.pure rfl
  | x :: l, hl => by
      have hc : keepItems (fun x => f [x] >>= truth) (x :: l) = (f [x] >>= fun y => truth y >>= fun b =>
          keepItems (fun x => f [x] >>= truth) l >>= fun ys => .ok (if b then x :: ys else ys)) := by
        simp only [keepItems]
        cases f [x] <;> rfl
      rw [hc]
      refine Means.bind (h.call hso hW hv hf (hl x (List.mem_cons_self ..))) fun y z ⟨hy, hz⟩ => ?_
      subst hz
      rw [← asBool_eq]
      refine Means.bind (Means.lift' (R := Eq) fun _ _ => rfl) fun b c hbc => ?_
      subst hbc
      refine Means.bind (Agree.conds h hso hW hv hf l fun y hy => hl y (List.mem_cons_of_mem _ hy)) fun ys zs hzs => ?_
      subst hzs
      refine Means.pure ?_
      cases b <;> rfl

theorem Agree.any (h : Agree W C D code n) (hso : Sound D False 0 W C False n) (hW : Honours D W C) {v : Value G B} {f : Fn G B}
    {t : SType} (hv : V v (.func [t] .bool [])) (hf : RelF W C D code Γ ρ v f) : ∀ l : List (Value G B), (∀ x ∈ l, V x t) →
    S Eq (callAny (eval W C n) v l) (someItem (fun x => f [x] >>= truth) l)
  | [], _ => Means.pure rfl
  | x :: l, hl => by
      have hc : someItem (fun x => f [x] >>= truth) (x :: l) = (f [x] >>= fun y => truth y >>= fun b =>
          if b then .ok true else someItem (fun x => f [x] >>= truth) l) := by
        simp only [someItem]
        cases f [x] <;> rfl
      rw [hc]
      refine Means.bind (h.call hso hW hv hf (hl x (List.mem_cons_self ..))) fun y z ⟨hy, hz⟩ => ?_
      subst hz
      rw [← asBool_eq]
      refine Means.bind (Means.lift' (R := Eq) fun _ _ => rfl) fun b c hbc => ?_
      subst hbc
      cases b with
      | true => exact Means.pure rfl
      | false => exact Agree.any h hso hW hv hf l fun y hy => hl y (List.mem_cons_of_mem _ hy)

theorem Agree.forAll (h : Agree W C D code n) (hso : Sound D False 0 W C False n) (hW : Honours D W C) {v : Value G B} {f : Fn G B}
    {t : SType} (hv : V v (.func [t] .bool [])) (hf : RelF W C D code Γ ρ v f) : ∀ l : List (Value G B), (∀ x ∈ l, V x t) →
    S Eq (callForAll (eval W C n) v l) (everyItem (fun x => f [x] >>= truth) l)
  | [], _ => Means.pure rfl
  | x :: l, hl => by
      have hc : everyItem (fun x => f [x] >>= truth) (x :: l) = (f [x] >>= fun y => truth y >>= fun b =>
          if b then everyItem (fun x => f [x] >>= truth) l else .ok false) := by
        simp only [everyItem]
        cases f [x] <;> rfl
      rw [hc]
      refine Means.bind (h.call hso hW hv hf (hl x (List.mem_cons_self ..))) fun y z ⟨hy, hz⟩ => ?_
      subst hz
      rw [← asBool_eq]
      refine Means.bind (Means.lift' (R := Eq) fun _ _ => rfl) fun b c hbc => ?_
      subst hbc
      cases b with
      | true => exact Agree.forAll h hso hW hv hf l fun y hy => hl y (List.mem_cons_of_mem _ hy)
      | false => exact Means.pure rfl

theorem Agree.fold (h : Agree W C D code n) (hso : Sound D False 0 W C False n) (hW : Honours D W C) {v : Value G B} {f : Fn G B}
    {t z : SType} (hv : V v (.func [.tuple [z, t]] z [])) (hf : RelF W C D code Γ ρ v f) : ∀ (l : List (Value G B)) (acc : Value G B),
    V acc z → (∀ x ∈ l, V x t) → S Eq (callFold (eval W C n) v acc l) (foldItems (fun a x => f [.tup [a, x]]) acc l)
  | [], acc, ha, _ => Means.pure rfl
  | x :: l, acc, ha, hl => Means.bind (h.call hso hW hv hf (hasTy_pair ha (hl x (List.mem_cons_self ..)))) fun y w ⟨hy, hw⟩ => by
      subst hw
      exact Agree.fold h hso hW hv hf l w hy fun y hy => hl y (List.mem_cons_of_mem _ hy)

/-! ### Binary operators -/

theorem res_bind_assoc {m : Res α} {f : α → Res β} {g : β → Res γ} : m >>= f >>= g = m >>= fun a => f a >>= g := by
  cases m <;> rfl
theorem res_ok_bind (a : α) (f : α → Res β) : Res.ok a >>= f = f a := rfl
theorem res_bind_ok (m : Res α) : m >>= Res.ok = m := by cases m <;> rfl

/-- The cost of a node does not matter. -/
theorem Means.cost {R : α → β → Prop} {m : EvalM G B α} {r : Res β} (h : S R m r) :
    S R (addCost none >>= fun _ => m) r := by
  intro s hs
  have : addCost none s = .ok ((), { s with cost := s.cost + 1 }) := rfl
  rw [EvalM.bind_ok this]
  exact h _ hs

theorem Agree.bin (h : Agree W C D code n) (hso : Sound D False 0 W C False n) (hC : C.limit = none) {o : BinK} {l r : Expr G B}
    (hl : Typed D (er Γ) l) (hr : Typed D (er Γ) r) (ho : BinOk o l.tpe r.tpe) (hFl : FirstOrder l) (hFr : FirstOrder r)
    (hnl : isFuncTy l.tpe = false) (hnr : isFuncTy r.tpe = false) :
    S IsVal (evalBin C (eval W C n) o l r) (binDen o (den W C code ρ l) (den W C code ρ r)) := by
  unfold evalBin
  rw [hC]
  refine Means.cost ?_
  have hL := h.val (ρ := ρ) hso hl hFl rfl hnl
  have hR := h.val (ρ := ρ) hso hr hFr rfl hnr
  generalize hlt : l.tpe = lt at ho hL
  generalize hrt : r.tpe = rt at ho hR
  have hB : S Eq (evalAs (eval W C n) Value.asBool r) (value (den W C code ρ r) >>= truth) := by
    refine Means.bind hR fun v w hw => ?_
    rw [hw.2, ← asBool_eq]
    exact Means.lift' fun _ _ => rfl
  have hb : ∀ v : Value G B, S Eq (EvalM.lift v.asBool) (truth v) := fun v => by
    rw [← asBool_eq]
    exact Means.lift' fun _ _ => rfl
  cases ho with
  | number t hm =>
    have hnum : ∀ lv rv : Value G B, S IsVal (EvalM.lift (lv.binNum o rv)) (lv.binNum o rv >>= fun v => .ok (.val v)) :=
      fun lv rv => Means.lift fun v _ => ⟨_, rfl, rfl⟩
    have hcmp : ∀ lv : Value G B, S IsVal (eval W C n r >>= fun rv => EvalM.lift (lv.binNum o rv))
        (value (den W C code ρ r) >>= fun b => lv.binNum o b >>= fun v => .ok (.val v)) := fun lv =>
      Means.bind hR fun rv w hw => by rw [hw.2]; exact hnum lv rv
    have hleft : ∀ lv : Value G B, V lv t.stype → S IsVal (match lv.leftNum o with
        | some f => evalAs (eval W C n) f r
        | none => EvalM.fail .unexpectedValue) (value (den W C code ρ r) >>= fun b => lv.binNum o b >>= fun v => .ok (.val v)) := by
      intro lv hlv
      cases hf : lv.leftNum o with
      | none =>
        exfalso
        obtain ⟨x, hx⟩ := isNum_of_hasTy hlv
        simp only [List.mem_cons, List.not_mem_nil, or_false] at hm
        cases hx <;> rcases hm with rfl | rfl | rfl | rfl | rfl | rfl | rfl | rfl | rfl | rfl | rfl | rfl | rfl | rfl <;> cases hf
      | some f =>
        refine Means.bind hR fun rv w hw => ?_
        have : lv.binNum o rv = f rv := by unfold Value.binNum; rw [hf]
        rw [hw.2, ← this]
        exact hnum lv rv
    simp only [List.mem_cons, List.not_mem_nil, or_false] at hm
    rcases hm with rfl | rfl | rfl | rfl | rfl | rfl | rfl | rfl | rfl | rfl | rfl | rfl | rfl | rfl
    all_goals first
      | exact Means.bind hL fun lv w hw => by rw [hw.2]; exact hcmp lv
      | exact Means.bind hL fun lv w hw => by rw [hw.2]; exact hleft lv hw.1
  | logic hm =>
    have hright : S IsVal (evalAs (eval W C n) Value.asBool r >>= fun c => pure (Value.bool c : Value G B))
        (value (den W C code ρ r) >>= truth >>= fun b => .ok (.val (.bool b))) :=
      Means.bind hB fun c c' e => by subst e; exact Means.pure rfl
    simp only [List.mem_cons, List.not_mem_nil, or_false] at hm
    rcases hm with rfl | rfl | rfl
    · dsimp only [binDen]
      rw [res_bind_assoc]
      refine Means.bind hL fun lv w hw => ?_
      rw [hw.2]
      refine Means.bind (hb lv) fun c c' e => ?_
      subst e
      cases c with
      | true => exact hright
      | false => exact Means.pure rfl
    · dsimp only [binDen]
      rw [res_bind_assoc]
      refine Means.bind hL fun lv w hw => ?_
      rw [hw.2]
      refine Means.bind (hb lv) fun c c' e => ?_
      subst e
      cases c with
      | true => exact Means.pure rfl
      | false => exact hright
    · dsimp only [binDen]
      rw [res_bind_assoc]
      refine Means.bind hL fun lv w hw => ?_
      rw [hw.2]
      refine Means.bind (hb lv) fun c c' e => ?_
      subst e
      refine Means.bind hB fun c' d' e => ?_
      subst e
      refine Means.pure ?_
      cases c <;> cases c' <;> rfl
  | equal hm =>
    simp only [List.mem_cons, List.not_mem_nil, or_false] at hm
    rcases hm with rfl | rfl
    · refine Means.bind hL fun lv w hw => Means.bind hR fun rv w' hw' => ?_
      rw [hw.2, hw'.2]
      exact Means.pure rfl
    · refine Means.bind hL fun lv w hw => Means.bind hR fun rv w' hw' => ?_
      rw [hw.2, hw'.2]
      refine Means.pure ?_
      simp [IsVal]


/-! ### Methods -/

theorem Agree.optionMap (h : Agree W C D code n) (hso : Sound D False 0 W C False n) (hW : Honours D W C) {o v : Value G B} {f : Fn G B}
    {t r : SType} (ho : V o (.option t)) (hv : V v (.func [t] r [])) (hf : RelF W C D code Γ ρ v f) :
    S IsVal (optionMapMethod (eval W C n) o [v]) (mapOption f o >>= fun v => .ok (.val v)) := by
  have hl : ∃ args body, v = .lam args body := by
    obtain ⟨args, body, _, _, _, _, rfl, _⟩ := hf
    exact ⟨args, body, rfl⟩
  obtain ⟨args, body, rfl⟩ := hl
  have hm : optionMapMethod (eval W C n) o [.lam args body] = (match o with
      | .some x => callLam (eval W C n) (.lam args body) x >>= fun y => pure (.some y)
      | .none => pure .none
      | _ => EvalM.fail .unexpectedValue) := by cases o <;> rfl
  rw [hm]
  cases ho with
  | none => exact Means.pure rfl
  | some x t hx =>
    dsimp only [mapOption]
    rw [res_bind_assoc]
    refine Means.bind (h.call hso hW hv hf hx) fun y w hw => ?_
    rw [hw.2]
    exact Means.pure rfl

theorem Agree.optionFilter (h : Agree W C D code n) (hso : Sound D False 0 W C False n) (hW : Honours D W C) {o v : Value G B} {f : Fn G B}
    {t : SType} (ho : V o (.option t)) (hv : V v (.func [t] .bool [])) (hf : RelF W C D code Γ ρ v f) :
    S IsVal (optionFilterMethod (eval W C n) o [v]) (filterOption f o >>= fun v => .ok (.val v)) := by
  have hl : ∃ args body, v = .lam args body := by
    obtain ⟨args, body, _, _, _, _, rfl, _⟩ := hf
    exact ⟨args, body, rfl⟩
  obtain ⟨args, body, rfl⟩ := hl
  have hm : optionFilterMethod (eval W C n) o [.lam args body] = (match o with
      | .some x => callLam (eval W C n) (.lam args body) x >>= fun y => match y with
        | .bool b => pure (if b then .some x else .none)
        | _ => EvalM.fail .unexpectedValue
      | .none => pure .none
      | _ => EvalM.fail .unexpectedValue) := by cases o <;> rfl
  rw [hm]
  cases ho with
  | none => exact Means.pure rfl
  | some x t hx =>
    dsimp only [filterOption]
    rw [res_bind_assoc, res_bind_assoc]
    refine Means.bind (h.call hso hW hv hf hx) fun y w hw => ?_
    rw [hw.2]
    have hb := hw.1
    cases hb with
    | bool b => exact Means.pure rfl

theorem Agree.method (h : Agree W C D code n) (hso : Sound D False 0 W C False n) (hW : Honours D W C) {t m : Byte} {sig : FuncSig}
    {o : Expr G B} {args : List (Expr G B)} (ho : Typed D (er Γ) o) (ha : ∀ e ∈ args, Typed D (er Γ) e)
    (hs : Expr.specialize methodTable t m (o.tpe :: Expr.tpes args) = some sig) (hb : ¬ badMethod t m)
    (hFo : FirstOrder o) (hFa : ∀ e ∈ args, FirstOrder e) (hno : isFuncTy o.tpe = false) (hna : t ≠ 36 → ∀ e ∈ args, isFuncTy e.tpe = false) :
    S IsVal (eval W C n o >>= fun o => evalAll (eval W C n) args >>= fun vs => callMethod W C (eval W C n) t m o vs)
      (methodDen W C t m (den W C code ρ o) (dens W C code ρ args)) := by
  obtain ⟨raw, sb, h1, h2, h3⟩ := specialize_eq hs
  unfold methodDen
  by_cases hc1 : t = 36 ∧ m = 7
  · rw [if_pos hc1]
    obtain ⟨rfl, rfl⟩ := hc1
    cases h1
    simp only [FuncSig.plain, SType.withSubsts, SType.withSubst] at h2
    injection h2 with ho2 ha2
    obtain ⟨f, l, rfl, hft, hl⟩ := tpes_cons ha2.symm
    cases tpes_nil hl
    simp only [dens]
    refine Means.bind (h.val hso ho hFo ho2.symm (ho2 ▸ hno)) fun ov w hw => ?_
    rw [hw.2]
    have he : evalAll (eval W C n) [f] >>= (fun vs => callMethod W C (eval W C n) 36 7 ov vs) =
        eval W C n f >>= fun v => callMethod W C (eval W C n) 36 7 ov [v] := by
      funext s
      cases hf : eval W C n f s with
      | ok p =>
        obtain ⟨v, s1⟩ := p
        rw [EvalM.bind_ok hf]
        have : evalAll (eval W C n) [f] s = .ok ([v], s1) := by
          unfold evalAll
          rw [EvalM.bind_ok hf]
          rfl
        rw [EvalM.bind_ok this]
      | err e => rw [EvalM.bind_err hf, EvalM.bind_err]; unfold evalAll; rw [EvalM.bind_err hf]
      | panic => rw [EvalM.bind_panic hf, EvalM.bind_panic]; unfold evalAll; rw [EvalM.bind_panic hf]
      | out => rw [EvalM.bind_out hf, EvalM.bind_out]; unfold evalAll; rw [EvalM.bind_out hf]
    rw [he]
    exact Means.bind (h.fn hso (ha f (List.mem_cons_self ..)) (hFa f (List.mem_cons_self ..)) hft) fun v g hg =>
      h.optionMap hso hW hw.1 hg.1 hg.2
  · rw [if_neg hc1]
    by_cases hc2 : t = 36 ∧ m = 8
    · rw [if_pos hc2]
      obtain ⟨rfl, rfl⟩ := hc2
      cases h1
      simp only [FuncSig.plain, SType.withSubsts, SType.withSubst] at h2
      injection h2 with ho2 ha2
      obtain ⟨f, l, rfl, hft, hl⟩ := tpes_cons ha2.symm
      cases tpes_nil hl
      simp only [dens]
      refine Means.bind (h.val hso ho hFo ho2.symm (ho2 ▸ hno)) fun ov w hw => ?_
      rw [hw.2]
      have he : evalAll (eval W C n) [f] >>= (fun vs => callMethod W C (eval W C n) 36 8 ov vs) =
          eval W C n f >>= fun v => callMethod W C (eval W C n) 36 8 ov [v] := by
        funext s
        cases hf : eval W C n f s with
        | ok p =>
          obtain ⟨v, s1⟩ := p
          rw [EvalM.bind_ok hf]
          have : evalAll (eval W C n) [f] s = .ok ([v], s1) := by
            unfold evalAll
            rw [EvalM.bind_ok hf]
            rfl
          rw [EvalM.bind_ok this]
        | err e => rw [EvalM.bind_err hf, EvalM.bind_err]; unfold evalAll; rw [EvalM.bind_err hf]
        | panic => rw [EvalM.bind_panic hf, EvalM.bind_panic]; unfold evalAll; rw [EvalM.bind_panic hf]
        | out => rw [EvalM.bind_out hf, EvalM.bind_out]; unfold evalAll; rw [EvalM.bind_out hf]
      rw [he]
      exact Means.bind (h.fn hso (ha f (List.mem_cons_self ..)) (hFa f (List.mem_cons_self ..)) hft) fun v g hg =>
        h.optionFilter hso hW hw.1 hg.1 hg.2
    · rw [if_neg hc2]
      have ht : t ≠ 36 := by
        rintro rfl
        have : optionMethods m.toNat = some raw := h1
        unfold optionMethods at this
        split at this
        · next hm => exact hc1 ⟨rfl, BitVec.eq_of_toNat_eq (by simpa using hm)⟩
        · next hm => exact hc2 ⟨rfl, BitVec.eq_of_toNat_eq (by simpa using hm)⟩
        · cases this
      refine Means.bind (h.val hso ho hFo rfl hno) fun ov w hw => Means.bind (h.all hso args ha hFa (hna ht)) fun vs ws hws => ?_
      rw [hw.2, hws.2]
      have hm : callMethod W C (eval W C n) t m ov vs = EvalM.lift (Value.pureMethod W C t.toNat m.toNat ov vs) := by
        unfold callMethod
        rw [if_neg fun hc => hb (.inl hc), if_neg hc1, if_neg hc2]
      rw [hm]
      exact Means.lift fun v _ => ⟨_, rfl, rfl⟩

/-! ### Nodes with a fixed number of operands -/

theorem opDen_strict {o : SOp} (ho : o.special = false) (ts : List SType) (ds : List (Res (Den G B))) :
    opDen W C o ts ds = values ds >>= fun vs => Value.strictOp W C o vs >>= fun v => .ok (.val v) := by
  unfold opDen
  split <;> first | rfl | (exfalso; simp [SOp.special] at ho)

/-- A value of known shape. -/
theorem Agree.as (h : Agree W C D code n) (hso : Sound D False 0 W C False n) {e : Expr G B} (he : Typed D (er Γ) e) (hF : FirstOrder e)
    {t : SType} (ht : e.tpe = t) (hn : isFuncTy t = false) {f : Value G B → Res α} {mk : α → Value G B} (hf : ∀ v, V v t → ∃ a, f v = .ok a ∧ v = mk a) :
    S (fun a w => w = mk a) (evalAs (eval W C n) f e) (value (den W C code ρ e)) := by
  have := h.val (ρ := ρ) hso he hF ht hn
  rw [← res_bind_ok (value (den W C code ρ e))]
  refine Means.bind this fun v w hw => ?_
  obtain ⟨a, h1, h2⟩ := hf v hw.1
  rw [h1, hw.2, h2]
  exact Means.pure rfl

theorem as_bool {k : Nat} {v : Value G B} (h : HasTy D.box (LamOk D False 0 Γ k) v .bool) : ∃ a, v.asBool = .ok a ∧ v = .bool a := by
  cases h; exact ⟨_, rfl, rfl⟩
theorem as_byte {k : Nat} {v : Value G B} (h : HasTy D.box (LamOk D False 0 Γ k) v .byte) : ∃ a, v.asByte = .ok a ∧ v = .byte a := by
  cases h; exact ⟨_, rfl, rfl⟩
theorem as_int {k : Nat} {v : Value G B} (h : HasTy D.box (LamOk D False 0 Γ k) v .int) : ∃ a, v.asInt = .ok a ∧ v = .int a := by
  cases h; exact ⟨_, rfl, rfl⟩
theorem as_avl {k : Nat} {v : Value G B} (h : HasTy D.box (LamOk D False 0 Γ k) v .avlTree) : ∃ a, v.asAvl = .ok a ∧ v = .avlTree a := by
  cases h; exact ⟨_, rfl, rfl⟩
theorem as_point {k : Nat} {v : Value G B} (h : HasTy D.box (LamOk D False 0 Γ k) v .groupElement) :
    ∃ a, v.asPoint = .ok a ∧ v = .groupElement a := by
  cases h; exact ⟨_, rfl, rfl⟩
theorem as_box {k : Nat} {v : Value G B} (h : HasTy D.box (LamOk D False 0 Γ k) v .box) : ∃ a, v.asBox = .ok a ∧ v = .box a := by
  cases h; exact ⟨_, rfl, rfl⟩
theorem as_bytes {k : Nat} {v : Value G B} (h : HasTy D.box (LamOk D False 0 Γ k) v (.coll .byte)) :
    ∃ a, v.asBytes = .ok a ∧ v = .collByte a := by
  cases h with
  | bytes b => exact ⟨_, rfl, rfl⟩
  | coll _ _ h => exact absurd rfl h

theorem values_cons (d : Res (Den G B)) (l : List (Res (Den G B))) (f : List (Value G B) → Res α) :
    (values (d :: l) >>= f) = value d >>= fun v => values l >>= fun vs => f (v :: vs) := by
  conv => lhs; rw [values]
  rw [res_bind_assoc]
  congr 1
  funext v
  rw [res_bind_assoc]
  rfl

theorem Agree.op (h : Agree W C D code n) (hso : Sound D False 0 W C False n) (hW : Honours D W C) {o : SOp} {args : List (Expr G B)}
    (ha : ∀ e ∈ args, Typed D (er Γ) e) (ho : OpOk o (Expr.tpes args)) (hF : FirstOrder (.op o args)) :
    S IsVal (evalOp W C (eval W C n) o args) (opDen W C o (Expr.tpes args) (dens W C code ρ args)) := by
  have hFa : ∀ e ∈ args, FirstOrder e := fun e he => hF.child (by simpa [children] using he)
  have hv := hF.here.1
  cases hsp : o.special with
  | false =>
    rw [evalOp_strict W C _ o hsp, opDen_strict hsp]
    have hv : ∀ e ∈ args, isFuncTy e.tpe = false := by
      have : valueParts (.op o args : Expr G B) = args := by
        unfold valueParts
        cases o <;> first | rfl | cases hsp
      rw [this] at hv
      exact hv
    refine Means.bind (h.all hso args ha hFa hv) fun vs ws hws => ?_
    rw [hws.2]
    exact Means.lift fun v _ => ⟨_, rfl, rfl⟩
  | true =>
    generalize hts : Expr.tpes args = ts at ho
    cases ho
    case map t r =>
      obtain ⟨e1, l, rfl, h1, hts⟩ := tpes_cons hts
      obtain ⟨e2, l, rfl, h2, hts⟩ := tpes_cons hts
      cases tpes_nil hts
      simp only [List.mem_cons, List.not_mem_nil, or_false, forall_eq_or_imp, forall_eq] at ha hFa
      dsimp only [evalOp, opDen, dens]
      refine Means.bind (h.val hso ha.1 hFa.1 h1 rfl) fun iv w hw => Means.bind (h.fn hso ha.2 hFa.2 h2) fun f g hg => ?_
      obtain ⟨l, _, hl1, hl2, hl3⟩ := asColl_eq hw.1
      rw [h2, hw.2]
      dsimp only
      rw [hl1, hl2, res_bind_assoc]
      show S IsVal (callEach (eval W C n) f l >>= fun vs => EvalM.lift (Value.fromVec r vs))
        (eachItem (fun x => g [x]) l >>= fun l => .ok (.val (collOf r l)))
      refine Means.bind (h.each hso hW hg.1 hg.2 l hl3) fun vs ws hws => ?_
      rw [hws.2, fromVec_eq hws.1]
      exact Means.pure rfl
    case filter t =>
      obtain ⟨e1, l, rfl, h1, hts⟩ := tpes_cons hts
      obtain ⟨e2, l, rfl, h2, hts⟩ := tpes_cons hts
      cases tpes_nil hts
      simp only [List.mem_cons, List.not_mem_nil, or_false, forall_eq_or_imp, forall_eq] at ha hFa
      dsimp only [evalOp, opDen, dens]
      refine Means.bind (h.val hso ha.1 hFa.1 h1 rfl) fun iv w hw => Means.bind (h.fn hso ha.2 hFa.2 h2) fun f g hg => ?_
      obtain ⟨l, _, hl1, hl2, hl3⟩ := asColl_eq hw.1
      rw [h1, hw.2]
      dsimp only [SType.postEval, collElem, elemOf]
      rw [hl1, hl2, res_bind_assoc]
      show S IsVal (callConds (eval W C n) f l >>= fun bs => EvalM.lift (Value.fromVec t (((l.zip bs).filter fun p => p.2).map Prod.fst)))
        (keepItems (fun x => g [x] >>= truth) l >>= fun l => .ok (.val (collOf t l)))
      refine Means.bind (h.conds hso hW hg.1 hg.2 l hl3) fun bs ws hws => ?_
      have hk : ∀ c ∈ ((l.zip bs).filter fun p => p.2).map Prod.fst, V c t := by
        intro c hc
        obtain ⟨p, hp, rfl⟩ := List.mem_map.1 hc
        exact hl3 _ (List.of_mem_zip (a := p.1) (b := p.2) (List.mem_filter.1 hp).1).1
      rw [hws, fromVec_eq hk]
      exact Means.pure rfl
    case anyOf t =>
      obtain ⟨e1, l, rfl, h1, hts⟩ := tpes_cons hts
      obtain ⟨e2, l, rfl, h2, hts⟩ := tpes_cons hts
      cases tpes_nil hts
      simp only [List.mem_cons, List.not_mem_nil, or_false, forall_eq_or_imp, forall_eq] at ha hFa
      dsimp only [evalOp, opDen, dens]
      refine Means.bind (h.val hso ha.1 hFa.1 h1 rfl) fun iv w hw => Means.bind (h.fn hso ha.2 hFa.2 h2) fun f g hg => ?_
      obtain ⟨l, _, hl1, hl2, hl3⟩ := asColl_eq hw.1
      rw [h1, hw.2]
      dsimp only [SType.postEval, collElem]
      rw [hl1, hl2, res_bind_assoc]
      show S IsVal (callAny (eval W C n) f l >>= fun b => pure (.bool b)) (someItem (fun x => g [x] >>= truth) l >>= fun b => .ok (.val (.bool b)))
      refine Means.bind (h.any hso hW hg.1 hg.2 l hl3) fun b c hbc => ?_
      subst hbc
      exact Means.pure rfl
    case forAll t =>
      obtain ⟨e1, l, rfl, h1, hts⟩ := tpes_cons hts
      obtain ⟨e2, l, rfl, h2, hts⟩ := tpes_cons hts
      cases tpes_nil hts
      simp only [List.mem_cons, List.not_mem_nil, or_false, forall_eq_or_imp, forall_eq] at ha hFa
      dsimp only [evalOp, opDen, dens]
      refine Means.bind (h.val hso ha.1 hFa.1 h1 rfl) fun iv w hw => Means.bind (h.fn hso ha.2 hFa.2 h2) fun f g hg => ?_
      obtain ⟨l, _, hl1, hl2, hl3⟩ := asColl_eq hw.1
      rw [h1, hw.2]
      dsimp only [SType.postEval, collElem]
      rw [hl1, hl2, res_bind_assoc]
      show S IsVal (callForAll (eval W C n) f l >>= fun b => pure (.bool b)) (everyItem (fun x => g [x] >>= truth) l >>= fun b => .ok (.val (.bool b)))
      refine Means.bind (h.forAll hso hW hg.1 hg.2 l hl3) fun b c hbc => ?_
      subst hbc
      exact Means.pure rfl
    case fold t z =>
      obtain ⟨e1, l, rfl, h1, hts⟩ := tpes_cons hts
      obtain ⟨e2, l, rfl, h2, hts⟩ := tpes_cons hts
      obtain ⟨e3, l, rfl, h3, hts⟩ := tpes_cons hts
      cases tpes_nil hts
      simp only [List.mem_cons, List.not_mem_nil, or_false, forall_eq_or_imp, forall_eq] at ha hFa
      have hz : isFuncTy z = false := by rw [← h2]; exact hv e2 (by simp [valueParts])
      dsimp only [evalOp, opDen, dens]
      refine Means.bind (h.val hso ha.1 hFa.1 h1 rfl) fun iv w hw => Means.bind (h.val hso ha.2.1 hFa.2.1 h2 hz) fun zv w' hw' =>
        Means.bind (h.fn hso ha.2.2 hFa.2.2 h3) fun f g hg => ?_
      obtain ⟨l, hl0, hl1, hl2, hl3⟩ := asColl_eq hw.1
      rw [hw.2, hw'.2, hl0, hl2, res_bind_assoc]
      show S IsVal (callFold (eval W C n) f zv l) (foldItems (fun a x => g [.tup [a, x]]) zv l >>= fun v => .ok (.val v))
      exact (h.fold hso hW hg.1 hg.2 l zv hw'.1 hl3).post fun a b e => ⟨_, rfl, e ▸ rfl⟩
    case ifOp t =>
      obtain ⟨e1, l, rfl, h1, hts⟩ := tpes_cons hts
      obtain ⟨e2, l, rfl, h2, hts⟩ := tpes_cons hts
      obtain ⟨e3, l, rfl, h3, hts⟩ := tpes_cons hts
      cases tpes_nil hts
      simp only [List.mem_cons, List.not_mem_nil, or_false, forall_eq_or_imp, forall_eq] at ha hFa
      have ht : isFuncTy t = false := by rw [← h2]; exact hv e2 (by simp [valueParts])
      dsimp only [evalOp, opDen, dens]
      rw [res_bind_assoc]
      refine Means.bind (h.as hso ha.1 hFa.1 h1 rfl fun v hv => as_bool hv) fun c w hw => ?_
      subst hw
      show S IsVal _ (if c then den W C code ρ e2 else den W C code ρ e3)
      have hsub : ∀ e, Typed D (er Γ) e → FirstOrder e → e.tpe = t → S IsVal (eval W C n e) (den W C code ρ e) := fun e he hFe hte =>
        (h.sub hso he hFe hte).mono fun v d hd => by
          have := hd.2
          unfold RelD at this
          rw [ht] at this
          exact this
      cases c with
      | true => exact hsub e2 ha.2.1 hFa.2.1 h2
      | false => exact hsub e3 ha.2.2 hFa.2.2 h3
    case treeLookup =>
      obtain ⟨e1, l, rfl, h1, hts⟩ := tpes_cons hts
      obtain ⟨e2, l, rfl, h2, hts⟩ := tpes_cons hts
      obtain ⟨e3, l, rfl, h3, hts⟩ := tpes_cons hts
      cases tpes_nil hts
      simp only [List.mem_cons, List.not_mem_nil, or_false, forall_eq_or_imp, forall_eq] at ha hFa
      dsimp only [evalOp, opDen, dens]
      simp only [values_cons]
      refine Means.bind (h.as hso ha.1 hFa.1 h1 rfl fun v hv => as_avl hv) fun t w hw =>
        Means.bind (h.as hso ha.2.1 hFa.2.1 h2 rfl fun v hv => as_bytes hv) fun k w' hw' =>
        Means.bind (h.as hso ha.2.2 hFa.2.2 h3 rfl fun v hv => as_bytes hv) fun p w'' hw'' => ?_
      subst hw hw' hw''
      show S IsVal (EvalM.lift (Value.avlLookup W t k p) >>= fun r => pure (Value.ofOption (r.map .collByte)))
        (Value.avlLookup W t k p >>= fun r => _)
      refine Means.bind (Means.lift' (R := Eq) fun _ _ => rfl) fun r r' e => ?_
      subst e
      refine Means.pure ?_
      cases r <;> rfl
    case createProveDhTuple =>
      obtain ⟨e1, l, rfl, h1, hts⟩ := tpes_cons hts
      obtain ⟨e2, l, rfl, h2, hts⟩ := tpes_cons hts
      obtain ⟨e3, l, rfl, h3, hts⟩ := tpes_cons hts
      obtain ⟨e4, l, rfl, h4, hts⟩ := tpes_cons hts
      cases tpes_nil hts
      simp only [List.mem_cons, List.not_mem_nil, or_false, forall_eq_or_imp, forall_eq] at ha hFa
      dsimp only [evalOp, opDen, dens]
      simp only [values_cons]
      refine Means.bind (h.as hso ha.1 hFa.1 h1 rfl fun v hv => as_point hv) fun t w hw =>
        Means.bind (h.as hso ha.2.1 hFa.2.1 h2 rfl fun v hv => as_point hv) fun k w' hw' =>
        Means.bind (h.as hso ha.2.2.1 hFa.2.2.1 h3 rfl fun v hv => as_point hv) fun p w'' hw'' =>
        Means.bind (h.as hso ha.2.2.2 hFa.2.2.2 h4 rfl fun v hv => as_point hv) fun q w3 hw3 => ?_
      subst hw hw' hw'' hw3
      exact Means.pure rfl
    all_goals cases hsp


/-! ### All nodes -/

/-- Code from outside. -/
theorem means_code (hso : Sound D False 0 W C False n) (hW : Honours D W C)
    (hcode : ∀ e : Expr G B, Typed D [] e → FirstOrder e → ∀ s, TidyEnv (typedClass D) s.env → match eval W C n e s with
      | .ok (v, _) => ∃ d, code e = .ok d ∧ (isFuncTy e.tpe = false → d = .val v)
      | .err x => code e = .err x
      | .panic => code e = .panic
      | .out => True) {e : Expr G B} (he : Typed D [] e) (hF : FirstOrder e) (hn : isFuncTy e.tpe = false) :
    S IsVal (eval W C n e) (code e) := by
  intro s hs
  have hi := hcode e he hF s hs.1.2
  have hkeep : ∀ a s', eval W C n e s = .ok (a, s') → InScope W C D code Γ ρ s' := fun a s' hm =>
    InScope.keep (keepL_rel hW n e he.tidy) (tidyL_rel hW n e he.tidy) hs hm
  cases hm : eval W C n e s with
  | ok p =>
    obtain ⟨v, s1⟩ := p
    rw [hm] at hi
    obtain ⟨d, h1, h2⟩ := hi
    exact ⟨⟨d, h1, h2 hn⟩, hkeep v s1 hm⟩
  | err x => rw [hm] at hi; exact hi
  | panic => rw [hm] at hi; exact hi
  | out => trivial

theorem deser_means (hso : Sound D False 0 W C False n) (hW : Honours D W C)
    (hcode : ∀ e : Expr G B, Typed D [] e → FirstOrder e → isFuncTy e.tpe = false → S IsVal (eval W C n e) (code e))
    {t : SType} {c : Constant G B} (hT : ∀ e, deserialize W t c = .ok e → Typed D [] e) (hF : ∀ e, deserialize W t c = .ok e → FirstOrder e)
    (hn : isFuncTy t = false) : S IsVal (EvalM.lift (deserialize W t c) >>= fun e => eval W C n e) (deserialize W t c >>= code) := by
  refine Means.bind (Means.lift' (R := fun a b => a = b ∧ deserialize W t c = .ok a) fun a h => ⟨rfl, h⟩) fun a b hab => ?_
  obtain ⟨rfl, h⟩ := hab
  exact hcode a (hT a h) (hF a h) (by rw [deserialize_tpe h]; exact hn)

theorem Agree.step (h : Agree W C D code n) (hso : Sound D False 0 W C False n) (hW : Honours D W C) (hC : C.limit = none)
    (hFC : FirstOrderCode D W C)
    (hcode : ∀ e : Expr G B, Typed D [] e → FirstOrder e → isFuncTy e.tpe = false → S IsVal (eval W C n e) (code e))
    {e : Expr G B} (hT : Typed D (er Γ) e) (hF : FirstOrder e) :
    S (RelD W C D code Γ ρ e.tpe) (step W C (eval W C n) e) (den W C code ρ e) := by
  have hT' := hT
  by_cases hfn : ∃ args body, e = .func args body
  · obtain ⟨args, body, rfl⟩ := hfn
    unfold den
    refine Means.pure ?_
    show RelD W C D code Γ ρ (.func (args.map Prod.snd) body.tpe []) _ _
    unfold RelD
    rw [if_pos (show isFuncTy (.func (args.map Prod.snd) body.tpe []) = true from rfl)]
    exact ⟨_, rfl, args, body, [], Γ, [], ρ, rfl, rfl, rfl, rfl, hT, hF, rfl⟩
  by_cases hvu : ∃ id t, e = .valUse id t
  · obtain ⟨id, t, rfl⟩ := hvu
    unfold den
    cases hT with
    | valUse _ _ _ hm =>
      intro s hs
      obtain ⟨v, d, h1, h2, h3⟩ := hs.2.lookup hm
      have : Verif.step W C (eval W C n) (.valUse id t) s = .ok (v, s) := by
        show useVar id s = _
        unfold useVar
        rw [h1]
      rw [this]
      exact ⟨⟨d, h2, h3⟩, hs⟩
  have hn : isFuncTy e.tpe = false := by
    cases hx : isFuncTy e.tpe with
    | false => rfl
    | true =>
      have := hF.here.2 hx
      cases hT <;> first | exact (hfn ⟨_, _, rfl⟩).elim | exact (hvu ⟨_, _, rfl⟩).elim | cases this
  have hrel : RelD W C D code Γ ρ e.tpe = IsVal := by
    funext v d
    unfold RelD
    rw [hn]
    rfl
  rw [hrel]
  have hv := hF.here.1
  have hc : ∀ x ∈ children e, FirstOrder x := fun x hx => hF.child hx
  cases hT with
  | const _ c hc => unfold den; exact Means.pure rfl
  | valUse _ id t hm => exact absurd ⟨_, _, rfl⟩ hvu
  | bools _ l => unfold den; exact Means.pure rfl
  | op _ o args ha ho =>
    unfold den
    exact h.op hso hW ha ho hF
  | bin _ o l r hl hr ho =>
    unfold den
    exact h.bin hso hC hl hr ho (hc l (by simp [children])) (hc r (by simp [children])) (hv l (by simp [valueParts]))
      (hv r (by simp [valueParts]))
  | cast _ up e t he =>
    unfold den
    refine Means.bind (h.val hso he (hc e (by simp [children])) rfl (hv e (by simp [valueParts]))) fun v w hw => ?_
    rw [hw.2]
    exact Means.lift fun v _ => ⟨_, rfl, rfl⟩
  | extractReg _ e r t he hb hr =>
    unfold den
    refine Means.bind (h.as hso he (hc e (by simp [children])) hb rfl fun v hv => as_box hv) fun b w hw => ?_
    subst hw
    exact Means.lift fun v _ => ⟨_, rfl, rfl⟩
  | selectField _ e i ts he ht hi =>
    unfold den
    refine Means.bind (h.val hso he (hc e (by simp [children])) ht rfl) fun v w hw => ?_
    rw [hw.2]
    have hvt := hw.1
    cases hvt with
    | tup items _ hl hvs =>
      dsimp only
      cases hx : items[i.toNat - 1]? with
      | none => exact Means.fail
      | some x => exact Means.pure rfl
  | getVar _ id t hx =>
    unfold den
    dsimp only [Verif.step]
    cases C.extension.get id with
    | none => exact Means.pure rfl
    | some c =>
      dsimp only
      split
      · exact Means.pure rfl
      · exact Means.fail
  | deserCtx _ t id hx =>
    unfold den
    show S IsVal (EvalM.lift (contextExpr W C t id) >>= fun e => eval W C n e) _
    unfold contextExpr
    cases hg : C.extension.get id with
    | none => exact fun s hs => rfl
    | some c => exact deser_means hso hW hcode (fun e he => (hW.codeVar id t hx c hg).2 e he) (fun e he => hFC.1 id t hx c hg e he) hn
  | deserReg _ r t d hd hx =>
    unfold den
    show S IsVal (EvalM.lift (registerExpr W C r t d) >>= fun e => eval W C n e) _
    unfold registerExpr
    have hdef : S IsVal (EvalM.lift (defaultExpr t d) >>= fun e => eval W C n e) (match dens W C code ρ d, Expr.tpes d with
        | x :: _, dt :: _ => if dt.beq t then x else .err .unexpectedExpr
        | _, _ => .err .notFound) := by
      cases d with
      | nil => unfold dens; exact fun s hs => rfl
      | cons x l =>
        unfold dens
        show S IsVal (EvalM.lift (if x.tpe.beq t then .ok x else .err .unexpectedExpr) >>= fun e => eval W C n e)
          (if x.tpe.beq t then den W C code ρ x else .err .unexpectedExpr)
        by_cases hb : x.tpe.beq t = true
        · rw [if_pos hb, if_pos hb]
          have hxn := hv x (by simp [valueParts])
          refine (h Γ ρ x (hd x (List.mem_cons_self ..)) (hc x (by simp [children]))).mono fun v d hvd => ?_
          unfold RelD at hvd
          rw [hxn] at hvd
          exact hvd
        · rw [if_neg hb, if_neg hb]
          exact fun s hs => rfl
    cases hr : RegId.ofI8 r with
    | err x => exact fun s hs => rfl
    | panic => exact fun s hs => rfl
    | out => exact fun s hs => trivial
    | ok id =>
      rw [res_ok_bind, res_ok_bind]
      cases hg : getRegister W.box C.selfBox id with
      | err => exact hdef
      | panic => exact fun s hs => rfl
      | ok o =>
        cases o with
        | none => exact hdef
        | some c => exact deser_means hso hW hcode (fun e he => (hW.codeReg r t hx id c hr hg).2 e he) (fun e he => hFC.2 r t hx id c hr hg e he) hn
  | byIndex _ e i d t he hi hd ht hit hdt =>
    unfold den
    refine Means.bind (h.val hso he (hc e (by simp [children])) ht rfl) fun iv w hw => Means.bind (h.val hso hi (hc i (by simp [children])) hit rfl)
      fun ix w' hw' => ?_
    obtain ⟨l, hl0, hl1, hl2, hl3⟩ := asColl_eq hw.1
    obtain ⟨j, hj, rfl⟩ := as_int hw'.1
    rw [hw.2, hw'.2, hl0, hl2, res_ok_bind]
    cases d with
    | nil =>
      unfold dens
      show S IsVal (EvalM.lift (Res.ofOption .misc l[usizeOf j]?)) _
      dsimp only
      cases l[usizeOf j]? with
      | none => exact Means.fail
      | some x => exact Means.pure rfl
    | cons x rest =>
      unfold dens
      show S IsVal (eval W C n x >>= fun dv => EvalM.lift (Value.int j : Value G B).asInt >>= fun i => pure (l[usizeOf i]?.getD dv)) _
      dsimp only
      refine Means.bind (h.val hso (hd x (List.mem_cons_self ..)) (hc x (by simp [children])) rfl (hv x (by simp [valueParts]))) fun dv w hw => ?_
      rw [hw.2]
      exact Means.pure rfl
  | createAvl _ f d kl v hf hd hkl hx h1 h2 h3 h4 =>
    unfold den
    simp only [values_cons]
    refine Means.bind (h.as hso hf (hc f (by simp [children])) h1 rfl fun v hv => as_byte hv) fun a w hw =>
      Means.bind (h.as hso hd (hc d (by simp [children])) h2 rfl fun v hv => as_bytes hv) fun b w' hw' =>
      Means.bind (h.as hso hkl (hc kl (by simp [children])) h3 rfl fun v hv => as_int hv) fun c w'' hw'' => ?_
    subst hw hw' hw''
    cases v with
    | nil =>
      unfold dens
      exact Means.lift fun v _ => ⟨_, rfl, rfl⟩
    | cons x rest =>
      unfold dens
      simp only [List.take_succ_cons, List.take_zero, values_cons]
      refine Means.bind (h.as hso (hx x (List.mem_cons_self ..)) (hc x (by simp [children])) (h4 x (List.mem_cons_self ..)) rfl
        fun v hv => as_int hv) fun i w hw => ?_
      subst hw
      exact Means.lift fun v _ => ⟨_, rfl, rfl⟩
  | coll _ t items hi ht =>
    unfold den
    refine Means.bind (h.all hso items hi (fun x hx => hc x (by simpa [children] using hx)) (fun x hx => hv x (by simpa [valueParts] using hx)))
      fun vs ws hws => ?_
    rw [hws.2, fromVec_eq (hasTys_all hws.1 ht)]
    exact Means.pure rfl
  | tuple _ items hi =>
    unfold den
    refine Means.bind (h.all hso items hi (fun x hx => hc x (by simpa [children] using hx)) (fun x hx => hv x (by simpa [valueParts] using hx)))
      fun vs ws hws => ?_
    rw [hws.2]
    exact Means.pure rfl
  | sigma _ isAnd items hi ht =>
    unfold den
    refine Means.bind (h.all hso items hi (fun x hx => hc x (by simpa [children] using hx)) (fun x hx => hv x (by simpa [valueParts] using hx)))
      fun vs ws hws => ?_
    rw [hws.2]
    refine Means.bind (Means.lift' (R := Eq) fun _ _ => rfl) fun ps qs e => ?_
    subst e
    refine Means.bind (Means.lift' (R := Eq) fun _ _ => rfl) fun p q e => ?_
    subst e
    exact Means.pure rfl
  | func _ args body => exact absurd ⟨_, _, rfl⟩ hfn
  | apply _ f args r hf ha ht =>
    unfold den
    refine Means.bind (h.fn hso hf (hc f (by simp [children])) ht) fun fv g hg => Means.bind (h.all hso args ha
      (fun x hx => hc x (by simp [children, hx])) (fun x hx => hv x (by simpa [valueParts] using hx))) fun vs ws hws => ?_
    rw [hws.2]
    exact (h.apply hso hW hg.1 hg.2 hws.1).post fun v w hw => ⟨_, rfl, by rw [hw.2]; rfl⟩
  | block _ defs r hd hf hr hnf =>
    unfold den
    refine h.block hso hW hT' hd hf hr hnf (fun d hd' => ?_) (hc r (by simp [children]))
    exact (hc (.valDef d.1 d.2) (List.mem_cons_of_mem _ (List.mem_map.2 ⟨d, hd', rfl⟩))).child (by simp [children])
  | method _ t m sig o args ho ha hs hb =>
    unfold den
    refine h.method hso hW ho ha hs hb (hc o (by simp [children])) (fun x hx => hc x (by simp [children, hx])) (hv o ?_) fun ht x hx => hv x ?_
    · show o ∈ (if t = 36 then [o] else o :: args)
      split <;> simp
    · show x ∈ (if t = 36 then [o] else o :: args)
      rw [if_neg ht]
      simp [hx]
  | property _ t m sig o ho hs hb =>
    unfold den
    have := h.method (ρ := ρ) (args := []) hso hW ho (by simp) hs hb (hc o (by simp [children])) (by simp) (hv o (by simp [valueParts])) (by simp)
    unfold dens at this
    exact this


/-- The interpreter computes the meaning of typed scripts, whatever number of levels of outside code the meaning has, if it is large
enough. -/
theorem agree (hW : Honours D W C) (hC : C.limit = none) (hFC : FirstOrderCode D W C) : ∀ n K, n ≤ K → Agree W C D (meaning W C K) n
  | 0, _, _ => fun Γ ρ e hT hF s hs => trivial
  | n + 1, 0, h => absurd h (by omega)
  | n + 1, K + 1, h => by
    intro Γ ρ e hT hF
    have hso := sound (bd := False) (b := 0) (strict := False) hW (fun h => h.elim) (fun h => h.elim) n
    rw [eval_succ, hC]
    refine Means.cost (Agree.step (agree hW hC hFC n (K + 1) (by omega)) hso hW hC hFC (fun e he hFe hn => ?_) hT hF)
    refine means_code (D := D) hso hW (fun e he hFe s hs => ?_) he hFe hn
    have hi := agree hW hC hFC n K (by omega) [] [] e he hFe s ⟨⟨EnvOk.nil, hs⟩, .nil⟩
    show match eval W C n e s with
      | .ok (v, _) => ∃ d, den W C (meaning W C K) [] e = .ok d ∧ (isFuncTy e.tpe = false → d = .val v)
      | .err x => den W C (meaning W C K) [] e = .err x
      | .panic => den W C (meaning W C K) [] e = .panic
      | .out => True
    cases hm : eval W C n e s with
    | ok p =>
      obtain ⟨v, s1⟩ := p
      rw [hm] at hi
      obtain ⟨⟨d, h1, h2⟩, _⟩ := hi
      refine ⟨d, h1, fun hn => ?_⟩
      unfold RelD at h2
      rw [hn] at h2
      exact h2
    | err x => rw [hm] at hi; exact hi
    | panic => rw [hm] at hi; exact hi
    | out => trivial

end Steps
end Verif
