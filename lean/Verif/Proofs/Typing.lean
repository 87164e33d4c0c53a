import Verif.Proofs.TypingOps

set_option linter.unusedSimpArgs false
set_option linter.unusedVariables false

/-!
# Typed scripts evaluate to values of their type
-/

namespace Verif
open Spec
variable {G B T α β : Type}

/-! ## Scopes with a bound on the nesting of the functions they hold -/

/-- A variable in scope; the functions in its value need fewer than `depth` nested calls. -/
structure Local where
  id : BitVec 32
  tpe : SType
  depth : Nat

/-- The scope without the bounds. -/
def er (Γ : List Local) : Scope := Γ.map fun x => (x.id, x.tpe)

/-- The largest bound. -/
def top : List Local → Nat
  | [] => 0
  | x :: Γ => max x.depth (top Γ)

theorem top_append_le (Γ1 Γ2 : List Local) : top Γ2 ≤ top (Γ1 ++ Γ2) := by
  induction Γ1 with
  | nil => exact Nat.le_refl _
  | cons x Γ1 ih => simp only [List.cons_append, top]; omega

theorem depth_le_top (Γ1 : List Local) (x : Local) (Γ2 : List Local) : x.depth ≤ top (Γ1 ++ x :: Γ2) := by
  have := top_append_le Γ1 (x :: Γ2)
  simp only [top] at this
  omega

/-- Parameters of a function, as variables. -/
def params (args : List (BitVec 32 × SType)) : List Local := args.map fun a => ⟨a.1, a.2, 0⟩

theorem er_params (args : List (BitVec 32 × SType)) (Γ : List Local) : er (params args ++ Γ) = args ++ er Γ := by
  simp [er, params, List.map_append, List.map_map, Function.comp_def]

theorem top_params (args : List (BitVec 32 × SType)) (Γ : List Local) : top (params args ++ Γ) = top Γ := by
  induction args with
  | nil => rfl
  | cons a l ih =>
    show max 0 (top (params l ++ Γ)) = _
    omega

/-- The scope after definitions. -/
def extend (b : Nat) (Γ : List Local) (ds : List (BitVec 32 × Expr G B)) : List Local :=
  ds.foldl (fun Γ d => ⟨d.1, d.2.tpe, weight b d.2 + top Γ⟩ :: Γ) Γ

theorem er_extend (b : Nat) : ∀ (ds : List (BitVec 32 × Expr G B)) (Γ : List Local), er (extend b Γ ds) = (er Γ).define ds
  | [], Γ => rfl
  | d :: ds, Γ => er_extend b ds _

theorem top_extend (b : Nat) : ∀ (ds : List (BitVec 32 × Expr G B)) (Γ : List Local),
    top (extend b Γ ds) ≤ weights b (ds.map fun d => .valDef d.1 d.2) + top Γ
  | [], Γ => by simp [extend, weights]
  | d :: ds, Γ => by
    refine Nat.le_trans (top_extend b ds _) ?_
    simp only [List.map_cons, weights, weight, top]
    omega

variable (D : Decls B) (bd : Prop) (b : Nat)

/-- A function of the script: typed in a part of the scope, with a body that needs fewer than `k` nested calls. -/
def LamOk (Γ : List Local) (k : Nat) (args : List (BitVec 32 × SType)) (body : Expr G B) : Prop :=
  ∃ Γ1 Γ2, Γ = Γ1 ++ Γ2 ∧ Typed D (er Γ2) (.func args body) ∧ (bd → weight b body + top Γ2 < k)

variable {D bd b}

theorem LamOk.mono {Γ Γ' : List Local} {k k' : Nat} (hk : k ≤ k') {args : List (BitVec 32 × SType)} {body : Expr G B}
    (h : LamOk D bd b Γ k args body) : LamOk D bd b (Γ' ++ Γ) k' args body := by
  obtain ⟨Γ1, Γ2, rfl, h1, h2⟩ := h
  exact ⟨Γ' ++ Γ1, Γ2, by simp, h1, fun hb => Nat.lt_of_lt_of_le (h2 hb) hk⟩

theorem LamOk.up {Γ : List Local} {k k' : Nat} (hk : k ≤ k') {args : List (BitVec 32 × SType)} {body : Expr G B}
    (h : LamOk D bd b Γ k args body) : LamOk D bd b Γ k' args body := h.mono (Γ' := []) hk

variable (D bd b)

/-- Every variable in scope has a value of its type. -/
def EnvOk (Γ : List Local) (env : FMap (BitVec 32) (Value G B)) : Prop :=
  ∀ Γ1 x Γ2, Γ = Γ1 ++ x :: Γ2 → ∃ v, env.get x.id = some v ∧ HasTy D.box (LamOk D bd b Γ2 x.depth) v x.tpe

variable {D bd b}

theorem EnvOk.nil {env : FMap (BitVec 32) (Value G B)} : EnvOk D bd b [] env := by
  intro Γ1 x Γ2 h
  cases Γ1 <;> cases h

theorem EnvOk.congr {Γ : List Local} {env env' : FMap (BitVec 32) (Value G B)} (h : EnvOk D bd b Γ env) (he : SameBindings env' env) :
    EnvOk D bd b Γ env' := fun Γ1 x Γ2 e => by
  obtain ⟨v, h1, h2⟩ := h Γ1 x Γ2 e
  exact ⟨v, by rw [he]; exact h1, h2⟩

theorem EnvOk.drop {Γ1 Γ2 : List Local} {env : FMap (BitVec 32) (Value G B)} (h : EnvOk D bd b (Γ1 ++ Γ2) env) : EnvOk D bd b Γ2 env := by
  intro Γ3 x Γ4 e
  exact h (Γ1 ++ Γ3) x Γ4 (by simp [e])

theorem EnvOk.push {Γ : List Local} {env : FMap (BitVec 32) (Value G B)} (h : EnvOk D bd b Γ env) {id : BitVec 32} {t : SType} {d : Nat}
    {v : Value G B} (hv : HasTy D.box (LamOk D bd b Γ d) v t) (hf : id ∉ (er Γ).map Prod.fst) :
    EnvOk D bd b (⟨id, t, d⟩ :: Γ) (env.insert id v) := by
  intro Γ1 x Γ2 e
  cases Γ1 with
  | nil =>
    cases e
    exact ⟨v, by rw [get_insert', if_pos rfl], hv⟩
  | cons y Γ1 =>
    cases e
    obtain ⟨w, h1, h2⟩ := h Γ1 x Γ2 rfl
    refine ⟨w, ?_, h2⟩
    rw [get_insert', if_neg]
    · exact h1
    · rintro rfl
      exact hf (by simp [er])

/-! ## Typed scripts are tidy -/

/-- Code from outside is run only where it is declared. -/
def DeclaredCode (D : Decls B) : Expr G B → Prop
  | .deserCtx t id => D.codeVar id t
  | .deserReg r t _ => D.codeReg r t
  | _ => True

/-- The scripts without double bindings that run declared code only. -/
def typedClass (D : Decls B) : TidyClass G B where
  X := Everywhere fun e => DistinctBinders e ∧ DeclaredCode D e
  here := fun h => h.here.1
  child := fun h hc => h.child hc

theorem definedIds_defs (defs : List (BitVec 32 × Expr G B)) :
    definedIds (defs.map fun d => .valDef d.1 d.2) = defs.map Prod.fst := by
  induction defs with
  | nil => rfl
  | cons d l ih => simp [definedIds, ih]

theorem define_ids (defs : List (BitVec 32 × Expr G B)) : ∀ (Γ : Scope), (∀ i ∈ Γ.map Prod.fst, i ∈ (Γ.define defs).map Prod.fst) ∧
    ∀ d ∈ defs, d.1 ∈ (Γ.define defs).map Prod.fst := by
  induction defs with
  | nil => intro Γ; exact ⟨fun i hi => hi, by simp⟩
  | cons d l ih =>
    intro Γ
    obtain ⟨h1, h2⟩ := ih ((d.1, d.2.tpe) :: Γ)
    refine ⟨fun i hi => h1 i (List.mem_cons_of_mem _ hi), fun x hx => ?_⟩
    rcases List.mem_cons.1 hx with rfl | hx
    · exact h1 _ (List.mem_cons_self ..)
    · exact h2 x hx

theorem defs_nodup : ∀ (defs : List (BitVec 32 × Expr G B)) (Γ : Scope),
    (∀ pre d post, defs = pre ++ d :: post → d.1 ∉ (Γ.define pre).map Prod.fst) → (defs.map Prod.fst).Nodup := by
  intro defs
  induction defs with
  | nil => intro Γ _; exact List.nodup_nil
  | cons d l ih =>
    intro Γ h
    rw [List.map_cons, List.nodup_cons]
    constructor
    · intro hc
      obtain ⟨x, hx, e⟩ := List.mem_map.1 hc
      obtain ⟨pre, post, rfl⟩ := List.append_of_mem hx
      apply h (d :: pre) x post rfl
      rw [e]
      exact (define_ids _ Γ).2 d (List.mem_cons_self ..)
    · exact ih ((d.1, d.2.tpe) :: Γ) fun pre x post e => h (d :: pre) x post (by rw [e]; rfl)

theorem Spec.Typed.tidy {Γ : Scope} {e : Expr G B} (h : Typed D Γ e) : (typedClass D).X e := by
  show Everywhere _ e
  induction h with
  | const Γ c h => exact .mk ⟨trivial, trivial⟩ (by simp [children])
  | valUse => exact .mk ⟨trivial, trivial⟩ (by simp [children])
  | bools => exact .mk ⟨trivial, trivial⟩ (by simp [children])
  | getVar => exact .mk ⟨trivial, trivial⟩ (by simp [children])
  | deserCtx Γ t id h => exact .mk ⟨trivial, h⟩ (by simp [children])
  | deserReg Γ r t d hd h ih => exact .mk ⟨trivial, h⟩ ih
  | op Γ o args ha h ih => exact .mk ⟨trivial, trivial⟩ ih
  | coll Γ t items hi h ih => exact .mk ⟨trivial, trivial⟩ ih
  | tuple Γ items hi ih => exact .mk ⟨trivial, trivial⟩ ih
  | sigma Γ a items hi h ih => exact .mk ⟨trivial, trivial⟩ ih
  | bin Γ k l r hl hr h ih1 ih2 => exact .mk ⟨trivial, trivial⟩ (by simp only [children]; simp; exact ⟨ih1, ih2⟩)
  | cast Γ up e t he ih => exact .mk ⟨trivial, trivial⟩ (by simp only [children]; simpa using ih)
  | extractReg Γ e r t he hb h ih => exact .mk ⟨trivial, trivial⟩ (by simp only [children]; simpa using ih)
  | selectField Γ e i ts he ht h ih => exact .mk ⟨trivial, trivial⟩ (by simp only [children]; simpa using ih)
  | property Γ t m sig o ho h hb ih => exact .mk ⟨trivial, trivial⟩ (by simp only [children]; simpa using ih)
  | method Γ t m sig o args ho ha h hb ih1 ih2 =>
    refine .mk ⟨trivial, trivial⟩ fun c hc => ?_
    rcases List.mem_cons.1 hc with rfl | hc
    · exact ih1
    · exact ih2 c hc
  | apply Γ f args r hf ha h ih1 ih2 =>
    refine .mk ⟨trivial, trivial⟩ fun c hc => ?_
    rcases List.mem_cons.1 hc with rfl | hc
    · exact ih1
    · exact ih2 c hc
  | byIndex Γ e i d t he hi hd h hit hdt ih1 ih2 ih3 =>
    refine .mk ⟨trivial, trivial⟩ fun c hc => ?_
    simp only [children, List.mem_cons] at hc
    rcases hc with rfl | rfl | hc
    · exact ih1
    · exact ih2
    · exact ih3 c hc
  | createAvl Γ f d k v hf hd hk hv h1 h2 h3 h4 ih1 ih2 ih3 ih4 =>
    refine .mk ⟨trivial, trivial⟩ fun c hc => ?_
    simp only [children, List.mem_cons] at hc
    rcases hc with rfl | rfl | rfl | hc
    · exact ih1
    · exact ih2
    · exact ih3
    · exact ih4 c hc
  | func Γ args body hn hf ha hb h ih => exact .mk ⟨hn, trivial⟩ (by simp only [children]; simpa using ih)
  | block Γ defs r hd hf hr hn ih1 ih2 =>
    refine .mk ⟨?_, trivial⟩ fun c hc => ?_
    · show (definedIds _).Nodup
      rw [definedIds_defs]
      exact defs_nodup defs Γ hf
    · rcases List.mem_cons.1 hc with rfl | hc
      · exact ih2
      · obtain ⟨d, hd', rfl⟩ := List.mem_map.1 hc
        obtain ⟨pre, post, rfl⟩ := List.append_of_mem hd'
        refine .mk ⟨trivial, trivial⟩ ?_
        simp only [children, List.mem_singleton, forall_eq]
        exact ih1 pre d post rfl

theorem Spec.AllLam.mono {L L' : List (BitVec 32 × SType) → Expr G B → Prop} {v : Value G B} (h : AllLam L v) (hl : ∀ a e, L a e → L' a e) :
    AllLam L' v := by
  induction h with
  | mk h1 h2 ih => exact .mk (fun a e hv => hl a e (h1 a e hv)) ih

theorem hasTy_tidy {Γ : List Local} {k : Nat} {v : Value G B} {t : SType} (h : HasTy D.box (LamOk D bd b Γ k) v t) :
    AllLam (typedClass (G := G) D).L v :=
  h.allLam.mono fun a e ⟨_, _, _, h, _⟩ => Spec.Typed.tidy h

/-! ## The invariant and the program logic -/

variable (D bd b) in
/-- The variables in scope have values of their types, and all functions are tidy. -/
def ScopeInv (Γ : List Local) (s : EvalSt G B) : Prop := EnvOk D bd b Γ s.env ∧ TidyEnv (typedClass D) s.env

theorem ScopeInv.keep {Γ : List Local} {Q Q' : α → Prop} {m : EvalM G B α} (h1 : Keeps (typedClass D) Q m) (h2 : KeepsTidy (typedClass D) Q' m)
    {s s' : EvalSt G B} {a : α} (hs : ScopeInv D bd b Γ s) (hm : m s = .ok (a, s')) : ScopeInv D bd b Γ s' := by
  refine ⟨?_, (h2 s a s' hs.2 hm).2⟩
  cases Γ with
  | nil => exact EnvOk.nil
  | cons x Γ =>
    obtain ⟨v, hv, _⟩ := hs.1 [] x Γ rfl
    exact hs.1.congr (h1 s a s' ⟨⟨_, v, hv⟩, hs.2⟩ hm).2

/-- From states with `P` the routine leads to states with `P` and its result satisfies `Q`; it runs out of nesting budget only if `N`, and it
fails for a wrong type only if not `strict`. -/
def Run (P : EvalSt G B → Prop) (N strict : Prop) (Q : α → Prop) (m : EvalM G B α) : Prop :=
  ∀ s, P s → match m s with
    | .ok (a, s') => Q a ∧ P s'
    | .err x => strict → x ≠ .tryExtract
    | .panic => True
    | .out => N

namespace Run
variable {P : EvalSt G B → Prop} {N N' strict : Prop}

theorem bind {Q : α → Prop} {Q' : β → Prop} {m : EvalM G B α} {f : α → EvalM G B β} (h : Run P N strict Q m)
    (h' : ∀ a, Q a → Run P N strict Q' (f a)) : Run P N strict Q' (m >>= f) := by
  intro s hs
  have := h s hs
  cases hm : m s with
  | ok r =>
    obtain ⟨a, s1⟩ := r
    rw [hm] at this
    rw [EvalM.bind_ok hm]
    exact h' a this.1 s1 this.2
  | err e => rw [hm] at this; rw [EvalM.bind_err hm]; exact this
  | panic => rw [EvalM.bind_panic hm]; trivial
  | out => rw [hm] at this; rw [EvalM.bind_out hm]; exact this

theorem mono {Q Q' : α → Prop} {m : EvalM G B α} (h : Run P N strict Q m) (hn : N → N') (hq : ∀ a, Q a → Q' a) :
    Run P N' strict Q' m := by
  intro s hs
  have := h s hs
  cases hm : m s with
  | ok r => obtain ⟨a, s1⟩ := r; rw [hm] at this; exact ⟨hq a this.1, this.2⟩
  | err e => rw [hm] at this; exact this
  | panic => trivial
  | out => rw [hm] at this; exact hn this

theorem lift {r : Res α} {Q : α → Prop} (h : RS r Q) : Run P N strict Q (EvalM.lift r) := by
  intro s hs
  cases r with
  | ok a => exact ⟨h.1.2 a rfl, hs⟩
  | err e => exact fun _ he => h.2 (by rw [he])
  | panic => trivial
  | out => exact absurd rfl h.1.1

theorem pure {a : α} {Q : α → Prop} (h : Q a) : Run P N strict Q (Pure.pure a : EvalM G B α) := fun s hs => ⟨h, hs⟩
theorem fail {e : EvalErr} {Q : α → Prop} (h : strict → e ≠ .tryExtract) : Run P N strict Q (EvalM.fail e : EvalM G B α) := fun s hs => h
theorem err {e : EvalErr} {Q : α → Prop} (h : e ≠ .tryExtract := by decide) : Run P N strict Q (EvalM.fail e : EvalM G B α) :=
  fun s hs _ => h

end Run

theorem run_addCost {Γ : List Local} {N strict : Prop} (lim : Option Nat) :
    Run (G := G) (ScopeInv D bd b Γ) N strict (fun _ => True) (addCost lim) := by
  intro s hs
  unfold addCost
  cases lim with
  | none => exact ⟨trivial, hs⟩
  | some l =>
    dsimp only
    split
    · next h => split at h <;> cases h; exact ⟨trivial, hs⟩
    · next h => split at h <;> cases h; intro _; decide
    · trivial
    · next h => split at h <;> cases h

/-! ## Steps of the interpreter -/

section Steps
variable [DecidableEq G] [DecidableEq B] [DecidableEq (Value G B)] {W : World G B T} {C : EvalCtx G B} {strict : Prop}

theorem deserialize_tpe {t : SType} {c : Constant G B} {e : Expr G B} (h : deserialize W t c = .ok e) : e.tpe = t := by
  unfold deserialize at h
  split at h
  · obtain ⟨bs, _, h⟩ := Res.bind_eq_ok.1 h
    split at h
    · split at h
      · next hb => cases h; exact (SType.beq_iff _ _).1 hb
      · cases h
    · cases h
  · cases h

theorem rs_deserialize {t : SType} {c : Constant G B} (hc : WellTyped D.box c.v c.tpe) :
    RS (deserialize W t c) fun e => deserialize W t c = .ok e := by
  refine ⟨⟨NO.deserialize W t c, fun a h => h⟩, ?_⟩
  have : RS (deserialize W t c) fun _ => True := by
    unfold deserialize
    split
    · next hb =>
      rw [SType.beq_iff] at hb
      rw [hb] at hc
      refine RS.bind (rs_asBytes (L := fun _ _ => True) (hasTy_ofLiteral _ _ hc)) fun bs _ => ?_
      split
      · split
        · exact RS.ok' trivial
        · exact RS.err
      · exact RS.err
    · exact RS.err
  exact this.2

theorem rs_regId (r : Byte) : RS (RegId.ofI8 r) fun id => RegId.ofI8 r = .ok id := by
  refine ⟨⟨NO.regId r, fun a h => h⟩, ?_⟩
  unfold RegId.ofI8
  split
  · simp
  · split
    all_goals first
      | simp; done
      | (cases h : NmId.ofI8 r <;> simp [Res.ofOutcome])

/-- What `DeserializeContext` runs. -/
theorem rs_contextExpr (hW : Honours D W C) (hS : bd → SmallCode D W C b) {t : SType} {id : Byte} (h : D.codeVar id t) :
    RS (contextExpr W C t id) fun e => Typed D [] e ∧ e.tpe = t ∧ (bd → weight b e ≤ b) := by
  unfold contextExpr
  split
  · next c hc =>
    obtain ⟨h1, h2⟩ := hW.codeVar id t h c hc
    exact (rs_deserialize h1).mono fun e he => ⟨h2 e he, deserialize_tpe he, fun hb => (hS hb).1 id t h c hc e he⟩
  · exact RS.err

/-- What `DeserializeRegister` runs. -/
theorem rs_registerExpr (hW : Honours D W C) (hS : bd → SmallCode D W C b) {t : SType} {r : Byte} {d : List (Expr G B)}
    (h : D.codeReg r t) :
    RS (registerExpr W C r t d) fun e => e.tpe = t ∧ (Typed D [] e ∧ (bd → weight b e ≤ b) ∨ e ∈ d) := by
  unfold registerExpr
  refine RS.bind (rs_regId r) fun id hid => ?_
  split
  · next c hc =>
    obtain ⟨h1, h2⟩ := hW.codeReg r t h id c hid hc
    exact (rs_deserialize h1).mono fun e he => ⟨deserialize_tpe he, .inl ⟨h2 e he, fun hb => (hS hb).2 r t h id c hid hc e he⟩⟩
  · exact RS.panic
  · unfold defaultExpr
    split
    · split
      · next hb => exact RS.ok' ⟨(SType.beq_iff _ _).1 hb, .inr (List.mem_cons_self ..)⟩
      · exact RS.err
    · exact RS.err

theorem typed_deserC (hW : Honours D W C) {t : SType} {id : Byte} {e : Expr G B} (h : (typedClass D).X (.deserCtx t id : Expr G B))
    (he : contextExpr W C t id = .ok e) : (typedClass D).X e := by
  have hd : D.codeVar id t := (Everywhere.here h).2
  unfold contextExpr at he
  split at he
  · next c hc => exact ((hW.codeVar id t hd c hc).2 e he).tidy
  · cases he

theorem typed_deserR (hW : Honours D W C) {r : Byte} {t : SType} {d : List (Expr G B)} {e : Expr G B}
    (h : (typedClass D).X (.deserReg r t d : Expr G B)) (he : registerExpr W C r t d = .ok e) : (typedClass D).X e := by
  have hd : D.codeReg r t := (Everywhere.here h).2
  rcases registerExpr_from he with _ | hm
  · unfold registerExpr at he
    obtain ⟨id, hid, he⟩ := Res.bind_eq_ok.1 he
    split at he
    · next c hc => exact ((hW.codeReg r t hd id c hid hc).2 e he).tidy
    · cases he
    · unfold defaultExpr at he
      split at he
      · split at he
        · cases he; exact (typedClass D).child h (List.mem_cons_self ..)
        · cases he
      · cases he
  · exact (typedClass D).child h hm

/-- The two logics that say which variables are kept. -/
def keepL (hW : Honours D W C) : EvLogic W C := keepLogic W C (typedClass D) (fun h he => typed_deserC hW h he) (fun h he => typed_deserR hW h he)
def tidyL (hW : Honours D W C) : EvLogic W C := tidyLogic W C (typedClass D) (fun h he => typed_deserC hW h he) (fun h he => typed_deserR hW h he)

theorem keepL_rel (hW : Honours D W C) (n : Nat) : (keepL hW).Rel (eval W C n) (eval W C n) :=
  fun e he => eval_keeps_class W C (typedClass D) (fun h he => typed_deserC hW h he) (fun h he => typed_deserR hW h he) n e he
theorem tidyL_rel (hW : Honours D W C) (n : Nat) : (tidyL hW).Rel (eval W C n) (eval W C n) :=
  fun e he => eval_keepsTidy W C (typedClass D) (fun h he => typed_deserC hW h he) (fun h he => typed_deserR hW h he) n e he

variable (D bd b W C strict) in
/-- Typed scripts run well with `n` nested calls. -/
def Sound (n : Nat) : Prop := ∀ (Γ : List Local) (e : Expr G B), Typed D (er Γ) e →
  Run (ScopeInv D bd b Γ) (bd → n < weight b e + top Γ) strict (HasTy D.box (LamOk D bd b Γ (weight b e + top Γ)) · e.tpe) (eval W C n e)

variable {n : Nat} {Γ : List Local} {k : Nat}

local notation "V" => HasTy D.box (LamOk D bd b Γ k)
local notation "R" => Run (ScopeInv D bd b Γ) (bd → n < k) strict

/-- A part of the script. -/
theorem Sound.sub (h : Sound D bd b W C strict n) {e : Expr G B} (he : Typed D (er Γ) e) (hk : weight b e + top Γ ≤ k) :
    R (V · e.tpe) (eval W C n e) :=
  (h Γ e he).mono (fun h hb => Nat.lt_of_lt_of_le (h hb) hk) fun v hv => hv.mono fun _ _ hl => hl.up hk

theorem Sound.subAs (h : Sound D bd b W C strict n) {e : Expr G B} (he : Typed D (er Γ) e) (hk : weight b e + top Γ ≤ k) {t : SType}
    (ht : e.tpe = t) : R (V · t) (eval W C n e) := ht ▸ h.sub he hk

theorem Sound.as (h : Sound D bd b W C strict n) {e : Expr G B} (he : Typed D (er Γ) e) (hk : weight b e + top Γ ≤ k) {t : SType}
    (ht : e.tpe = t) {f : Value G B → Res α} {Q : α → Prop} (hf : ∀ v, V v t → RS (f v) Q) : R Q (evalAs (eval W C n) f e) :=
  Run.bind (h.subAs he hk ht) fun v hv => Run.lift (hf v hv)

theorem Sound.all (h : Sound D bd b W C strict n) : ∀ (l : List (Expr G B)), (∀ e ∈ l, Typed D (er Γ) e) → weights b l + top Γ ≤ k →
    R (HasTys D.box (LamOk D bd b Γ k) · (Expr.tpes l)) (evalAll (eval W C n) l)
  | [], _, _ => Run.pure List.Forall₂.nil
  | e :: l, he, hk => by
    simp only [weights] at hk
    exact Run.bind (h.sub (he e (List.mem_cons_self ..)) (by omega)) fun v hv =>
      Run.bind (Sound.all h l (fun x hx => he x (List.mem_cons_of_mem _ hx)) (by omega)) fun vs hvs => Run.pure (List.Forall₂.cons hv hvs)

/-- A call of a function with one parameter. -/
theorem Sound.call (h : Sound D bd b W C strict n) (hW : Honours D W C) {f arg : Value G B} {t r : SType} (hf : V f (.func [t] r []))
    (ha : V arg t) : R (V · r) (callLam (eval W C n) f arg) := by
  generalize hF : SType.func [t] r [] = ft at hf
  cases hf with
  | lam args body hl =>
    injection hF with h1 h2 _
    match args, h1 with
    | [(id, t')], h1 =>
      have ht : t = t' := by simpa using h1
      subst ht
      have hl' := hl
      obtain ⟨Γ1, Γ2, rfl, hT, hd⟩ := hl
      cases hT with
      | func _ _ _ hn hfr hna hnb hbody =>
        have hb' : Typed D (er (⟨id, t, 0⟩ :: Γ2)) body := hbody
        intro s hs
        have hs1 : ScopeInv D bd b (⟨id, t, 0⟩ :: Γ2) { s with env := s.env.insert id arg } :=
          ⟨hs.1.drop.push (ha.noFunc (hna (id, t) (List.mem_cons_self ..))) (hfr (id, t) (List.mem_cons_self ..)),
            hs.2.insert id (hasTy_tidy ha)⟩
        have hi := h _ body hb' _ hs1
        have hlam : AllLam (typedClass (G := G) D).L (.lam [(id, t)] body) :=
          hasTy_tidy (HasTy.lam (okBox := D.box) [(id, t)] body hl')
        have hkeep : ∀ a s', callLam (eval W C n) (.lam [(id, t)] body) arg s = .ok (a, s') → ScopeInv D bd b (Γ1 ++ Γ2) s' := fun a s' he =>
          ScopeInv.keep (EvLogic.callLam (keepL_rel hW n) hlam (hasTy_tidy ha)) (EvLogic.callLam (tidyL_rel hW n) hlam (hasTy_tidy ha)) hs he
        have hc : callLam (eval W C n) (.lam [(id, t)] body) arg s = withArg id arg (eval W C n body) s := rfl
        cases he : eval W C n body { s with env := s.env.insert id arg } with
        | ok p =>
          obtain ⟨a, s1⟩ := p
          rw [he] at hi
          obtain ⟨s2, this⟩ : ∃ s2, callLam (eval W C n) (.lam [(id, t)] body) arg s = .ok (a, s2) :=
            ⟨_, by rw [hc]; unfold withArg; rw [he]⟩
          have hk := hkeep _ _ this
          rw [this]
          exact ⟨h2 ▸ hi.1.noFunc hnb, hk⟩
        | err x =>
          rw [he] at hi
          have : callLam (eval W C n) (.lam [(id, t)] body) arg s = .err x := by rw [hc]; unfold withArg; rw [he]
          rw [this]; exact hi
        | panic =>
          have : callLam (eval W C n) (.lam [(id, t)] body) arg s = .panic := by rw [hc]; unfold withArg; rw [he]
          rw [this]; trivial
        | out =>
          rw [he] at hi
          have : callLam (eval W C n) (.lam [(id, t)] body) arg s = .out := by rw [hc]; unfold withArg; rw [he]
          rw [this]
          intro hb
          have h3 := hi hb
          have h4 := hd hb
          simp only [top] at h3
          omega
  | _ => cases hF

theorem bindArgs_run : ∀ (l : List (BitVec 32 × Value G B)) (sv : Saved G B) (s : EvalSt G B),
    ∃ sv', bindArgs l sv s = .ok (sv', { s with env := l.foldl (fun m p => m.insert p.1 p.2) s.env })
  | [], sv, s => ⟨sv, rfl⟩
  | (id, v) :: l, sv, s => by
    obtain ⟨sv', h⟩ := bindArgs_run l (sv.note s.env id) { s with env := s.env.insert id v }
    exact ⟨sv', h⟩

theorem get_foldl_other {ν : Type} : ∀ (l : List (BitVec 32 × ν)) (m : FMap (BitVec 32) ν) (i : BitVec 32), i ∉ l.map Prod.fst →
    FMap.get (l.foldl (fun m p => FMap.insert m p.1 p.2) m) i = m.get i
  | [], m, i, _ => rfl
  | (j, v) :: l, m, i, h => by
    simp only [List.map_cons, List.mem_cons, not_or] at h
    rw [List.foldl_cons, get_foldl_other l _ i h.2, get_insert', if_neg h.1]

theorem EnvOk.here {Γ : List Local} {env : FMap (BitVec 32) (Value G B)} (h : EnvOk D bd b Γ env) {id : BitVec 32} {t : SType} {d : Nat}
    {v : Value G B} (hv : HasTy D.box (LamOk D bd b Γ d) v t) (hg : env.get id = some v) : EnvOk D bd b (⟨id, t, d⟩ :: Γ) env := by
  intro Γ1 x Γ2 e
  cases Γ1 with
  | nil => cases e; exact ⟨v, hg, hv⟩
  | cons y Γ1 => cases e; exact h Γ1 x Γ2 rfl

theorem EnvOk.other {Γ : List Local} {env : FMap (BitVec 32) (Value G B)} (h : EnvOk D bd b Γ env) {id : BitVec 32} {v : Value G B}
    (hf : id ∉ (er Γ).map Prod.fst) : EnvOk D bd b Γ (env.insert id v) := by
  intro Γ1 x Γ2 e
  obtain ⟨w, h1, h2⟩ := h Γ1 x Γ2 e
  refine ⟨w, ?_, h2⟩
  rw [get_insert', if_neg]
  · exact h1
  · rintro rfl
    exact hf (by simp [er, e])

/-- The parameters of a call. -/
theorem envOk_params {L : List (BitVec 32 × SType) → Expr G B → Prop} : ∀ (args : List (BitVec 32 × SType)) (vs : List (Value G B))
    (env : FMap (BitVec 32) (Value G B)), HasTys D.box L vs (args.map Prod.snd) → (args.map Prod.fst).Nodup →
    (∀ a ∈ args, a.1 ∉ (er Γ).map Prod.fst) → (∀ a ∈ args, NoFunc a.2) → EnvOk D bd b Γ env →
    EnvOk D bd b (params args ++ Γ) (((args.map Prod.fst).zip vs).foldl (fun m p => FMap.insert m p.1 p.2) env)
  | [], vs, env, hv, hn, hf, ha, hs => hs
  | (id, t) :: args, vs, env, hv, hn, hf, ha, hs => by
    obtain ⟨v, vs', rfl, hv1, hv2⟩ := hv.cons
    have hn' := List.nodup_cons.1 hn
    refine EnvOk.here (envOk_params args vs' _ hv2 hn'.2 (fun a h => hf a (List.mem_cons_of_mem _ h))
      (fun a h => ha a (List.mem_cons_of_mem _ h)) (hs.other (hf _ (List.mem_cons_self ..)))) (v := v)
      (hv1.noFunc (ha (id, t) (List.mem_cons_self ..))) ?_
    rw [get_foldl_other, get_insert', if_pos rfl]
    intro hc
    obtain ⟨p, hp, e⟩ := List.mem_map.1 hc
    exact hn'.1 (e ▸ (List.of_mem_zip (a := p.1) (b := p.2) hp).1)

theorem tidyEnv_params : ∀ (l : List (BitVec 32 × Value G B)) (env : FMap (BitVec 32) (Value G B)),
    (∀ p ∈ l, AllLam (typedClass (G := G) D).L p.2) → TidyEnv (typedClass D) env →
    TidyEnv (typedClass D) (l.foldl (fun m p => FMap.insert m p.1 p.2) env)
  | [], env, _, h => h
  | p :: l, env, hl, h => tidyEnv_params l _ (fun q hq => hl q (List.mem_cons_of_mem _ hq)) (h.insert _ (hl p (List.mem_cons_self ..)))

theorem hasTys_mem {ok : B → Prop} {L : List (BitVec 32 × SType) → Expr G B → Prop} {vs : List (Value G B)} {ts : List SType}
    (h : HasTys ok L vs ts) : ∀ v ∈ vs, ∃ t, HasTy ok L v t := by
  induction h with
  | nil => simp
  | cons h1 _ ih =>
    intro v hv
    rcases List.mem_cons.1 hv with rfl | hv
    · exact ⟨_, h1⟩
    · exact ih v hv

/-- A call with arguments. -/
theorem Sound.apply (h : Sound D bd b W C strict n) (hW : Honours D W C) {f : Value G B} {vs : List (Value G B)} {ts : List SType}
    {r : SType} (hf : V f (.func ts r [])) (ha : HasTys D.box (LamOk D bd b Γ k) vs ts) : R (V · r) (applyLam (eval W C n) f vs) := by
  generalize hF : SType.func ts r [] = ft at hf
  cases hf with
  | lam args body hl =>
    injection hF with h1 h2 _
    subst h1 h2
    have hl' := hl
    obtain ⟨Γ1, Γ2, rfl, hT, hd⟩ := hl
    cases hT with
    | func _ _ _ hn hfr hna hnb hbody =>
      have hb' : Typed D (er (params args ++ Γ2)) body := by rw [er_params]; exact hbody
      intro s hs
      have hvs : ∀ v ∈ vs, AllLam (typedClass (G := G) D).L v := fun v hv => by
        obtain ⟨t, ht⟩ := hasTys_mem ha v hv
        exact hasTy_tidy ht
      have hs1 : ScopeInv D bd b (params args ++ Γ2)
          { s with env := ((args.map Prod.fst).zip vs).foldl (fun m p => FMap.insert m p.1 p.2) s.env } :=
        ⟨envOk_params args vs _ ha hn hfr hna hs.1.drop,
          tidyEnv_params _ _ (fun p hp => hvs _ (List.of_mem_zip (a := p.1) (b := p.2) hp).2) hs.2⟩
      have hi := h _ body hb' _ hs1
      have hlam : AllLam (typedClass (G := G) D).L (.lam args body) := hasTy_tidy (HasTy.lam (okBox := D.box) args body hl')
      have hkeep : ∀ a s', applyLam (eval W C n) (.lam args body) vs s = .ok (a, s') → ScopeInv D bd b (Γ1 ++ Γ2) s' := fun a s' he =>
        ScopeInv.keep (EvLogic.applyLam (keepL_rel hW n) hlam hvs) (EvLogic.applyLam (tidyL_rel hW n) hlam hvs) hs he
      obtain ⟨sv, hsv⟩ := bindArgs_run ((args.map Prod.fst).zip vs) { existing := [], news := [] } s
      have hc : applyLam (eval W C n) (.lam args body) vs s = (eval W C n body >>= fun v => restoreEnv sv >>= fun _ => pure v)
          { s with env := ((args.map Prod.fst).zip vs).foldl (fun m p => FMap.insert m p.1 p.2) s.env } := by
        dsimp only [applyLam]
        rw [EvalM.bind_ok hsv]
      cases he : eval W C n body { s with env := ((args.map Prod.fst).zip vs).foldl (fun m p => FMap.insert m p.1 p.2) s.env } with
      | ok p =>
        obtain ⟨a, s1⟩ := p
        rw [he] at hi
        rw [EvalM.bind_ok he] at hc
        have hk := hkeep a _ hc
        rw [hc]
        exact ⟨hi.1.noFunc hnb, hk⟩
      | err x => rw [he] at hi; rw [hc, EvalM.bind_err he]; exact hi
      | panic => rw [hc, EvalM.bind_panic he]; trivial
      | out =>
        rw [he] at hi
        rw [hc, EvalM.bind_out he]
        intro hb
        have h3 := hi hb
        have h4 := hd hb
        rw [top_params] at h3
        omega
  | _ => cases hF

/-- The definitions of a block. -/
theorem Sound.defs (h : Sound D bd b W C strict n) : ∀ (ds : List (BitVec 32 × Expr G B)) (Γ : List Local),
    (∀ pre d post, ds = pre ++ d :: post → Typed D ((er Γ).define pre) d.2) →
    (∀ pre d post, ds = pre ++ d :: post → d.1 ∉ ((er Γ).define pre).map Prod.fst) →
    weights b (ds.map fun d => Expr.valDef d.1 d.2) + top Γ ≤ k → ∀ s, ScopeInv D bd b Γ s →
    (match blockTop (eval W C n) (ds.map fun d => .valDef d.1 d.2) s with
      | .ok (_, s') => ScopeInv D bd b (extend b Γ ds) s'
      | .err x => strict → x ≠ .tryExtract
      | .panic => True
      | .out => bd → n < k) ∧
    ∀ sv, (match blockInner (eval W C n) (ds.map fun d => .valDef d.1 d.2) sv s with
      | .ok (_, s') => ScopeInv D bd b (extend b Γ ds) s'
      | .err x => strict → x ≠ .tryExtract
      | .panic => True
      | .out => bd → n < k)
  | [], Γ, hd, hf, hk, s, hs => ⟨hs, fun sv => hs⟩
  | d :: ds, Γ, hd, hf, hk, s, hs => by
    simp only [List.map_cons, weights, weight] at hk
    have hi := h Γ d.2 (hd [] d ds rfl) s hs
    have ih : ∀ s1 v, ScopeInv D bd b Γ s1 → HasTy D.box (LamOk D bd b Γ (weight b d.2 + top Γ)) v d.2.tpe → _ := fun s1 v hs1 hv =>
      Sound.defs h ds (⟨d.1, d.2.tpe, weight b d.2 + top Γ⟩ :: Γ) (fun pre x post e => hd (d :: pre) x post (by rw [e]; rfl))
        (fun pre x post e => hf (d :: pre) x post (by rw [e]; rfl)) (by simp only [top]; omega)
        { s1 with env := s1.env.insert d.1 v } ⟨hs1.1.push hv (hf [] d ds rfl), hs1.2.insert _ (hasTy_tidy hv)⟩
    simp only [List.map_cons]
    unfold blockTop blockInner
    cases he : eval W C n d.2 s with
    | ok p =>
      obtain ⟨v, s1⟩ := p
      rw [he] at hi
      obtain ⟨h1, h2⟩ := ih s1 v hi.2 hi.1
      refine ⟨?_, fun sv => ?_⟩
      · rw [EvalM.bind_ok he]; exact h1
      · rw [EvalM.bind_ok he]; exact h2 _
    | err x =>
      rw [he] at hi
      exact ⟨by rw [EvalM.bind_err he]; exact hi, fun sv => by rw [EvalM.bind_err he]; exact hi⟩
    | panic => exact ⟨by rw [EvalM.bind_panic he]; trivial, fun sv => by rw [EvalM.bind_panic he]; trivial⟩
    | out =>
      rw [he] at hi
      have : bd → n < k := fun hb => by have := hi hb; omega
      exact ⟨by rw [EvalM.bind_out he]; exact this, fun sv => by rw [EvalM.bind_out he]; exact this⟩

/-- A block. -/
theorem Sound.block (h : Sound D bd b W C strict n) (hW : Honours D W C) {ds : List (BitVec 32 × Expr G B)} {r : Expr G B}
    (hT : Typed D (er Γ) (.block (ds.map fun d => .valDef d.1 d.2) r))
    (hd : ∀ pre d post, ds = pre ++ d :: post → Typed D ((er Γ).define pre) d.2)
    (hf : ∀ pre d post, ds = pre ++ d :: post → d.1 ∉ ((er Γ).define pre).map Prod.fst) (hr : Typed D ((er Γ).define ds) r)
    (hn : NoFunc r.tpe) (hk : weights b (ds.map fun d => Expr.valDef d.1 d.2) + weight b r + top Γ ≤ k) :
    R (V · r.tpe) (evalBlock (eval W C n) (ds.map fun d => .valDef d.1 d.2) r) := by
  intro s hs
  have hkeep : ∀ a s', evalBlock (eval W C n) (ds.map fun d => .valDef d.1 d.2) r s = .ok (a, s') → ScopeInv D bd b Γ s' := fun a s' he =>
    ScopeInv.keep ((keepL hW).block (keepL_rel hW n) hT.tidy) ((tidyL hW).block (tidyL_rel hW n) hT.tidy) hs he
  obtain ⟨h1, h2⟩ := Sound.defs h (k := k) ds Γ hd hf (by omega) s hs
  have hi : ∀ s1, ScopeInv D bd b (extend b Γ ds) s1 → _ := fun s1 hs1 => h (extend b Γ ds) r (by rw [er_extend]; exact hr) s1 hs1
  have ht := top_extend b ds Γ
  have hc : ∀ s : EvalSt G B, evalBlock (eval W C n) (ds.map fun d => .valDef d.1 d.2) r s =
      (if s.env.isEmpty then blockTop (eval W C n) (ds.map fun d => .valDef d.1 d.2) >>= fun _ => eval W C n r
       else blockInner (eval W C n) (ds.map fun d => .valDef d.1 d.2) { existing := [], news := [] } >>= fun sv =>
        eval W C n r >>= fun v => restoreEnv sv >>= fun _ => pure v) s := fun s => rfl
  have hc := hc s
  split at hc
  · cases hb : blockTop (eval W C n) (ds.map fun d => .valDef d.1 d.2) s with
    | ok p =>
      obtain ⟨u, s1⟩ := p
      rw [hb] at h1
      rw [EvalM.bind_ok hb] at hc
      have hi := hi s1 h1
      cases he : eval W C n r s1 with
      | ok q =>
        obtain ⟨v, s2⟩ := q
        rw [he] at hi hc
        have := hkeep _ _ hc
        rw [hc]
        exact ⟨hi.1.noFunc hn, this⟩
      | err x => rw [he] at hi hc; rw [hc]; exact hi
      | panic => rw [he] at hc; rw [hc]; trivial
      | out => rw [he] at hi hc; rw [hc]; intro hb; have := hi hb; omega
    | err x => rw [hb] at h1; rw [EvalM.bind_err hb] at hc; rw [hc]; exact h1
    | panic => rw [EvalM.bind_panic hb] at hc; rw [hc]; trivial
    | out => rw [hb] at h1; rw [EvalM.bind_out hb] at hc; rw [hc]; exact h1
  · have h2 := h2 { existing := [], news := [] }
    cases hb : blockInner (eval W C n) (ds.map fun d => .valDef d.1 d.2) { existing := [], news := [] } s with
    | ok p =>
      obtain ⟨sv, s1⟩ := p
      rw [hb] at h2
      rw [EvalM.bind_ok hb] at hc
      have hi := hi s1 h2
      cases he : eval W C n r s1 with
      | ok q =>
        obtain ⟨v, s2⟩ := q
        rw [he] at hi
        rw [EvalM.bind_ok he] at hc
        have := hkeep v _ hc
        rw [hc]
        exact ⟨hi.1.noFunc hn, this⟩
      | err x => rw [he] at hi; rw [EvalM.bind_err he] at hc; rw [hc]; exact hi
      | panic => rw [EvalM.bind_panic he] at hc; rw [hc]; trivial
      | out => rw [he] at hi; rw [EvalM.bind_out he] at hc; rw [hc]; intro hb; have := hi hb; omega
    | err x => rw [hb] at h2; rw [EvalM.bind_err hb] at hc; rw [hc]; exact h2
    | panic => rw [EvalM.bind_panic hb] at hc; rw [hc]; trivial
    | out => rw [hb] at h2; rw [EvalM.bind_out hb] at hc; rw [hc]; exact h2

/-! ### Loops -/

theorem Sound.each (h : Sound D bd b W C strict n) (hW : Honours D W C) {f : Value G B} {t r : SType} (hf : V f (.func [t] r [])) :
    ∀ l : List (Value G B), (∀ v ∈ l, V v t) → R (fun vs => ∀ v ∈ vs, V v r) (callEach (eval W C n) f l)
  | [], _ => Run.pure (by simp)
  | x :: l, hl => Run.bind (h.call hW hf (hl x (List.mem_cons_self ..))) fun v hv =>
      Run.bind (Sound.each h hW hf l fun y hy => hl y (List.mem_cons_of_mem _ hy)) fun vs hvs => Run.pure (by
        intro y hy
        rcases List.mem_cons.1 hy with rfl | hy
        · exact hv
        · exact hvs y hy)

theorem Sound.conds (h : Sound D bd b W C strict n) (hW : Honours D W C) {f : Value G B} {t : SType} (hf : V f (.func [t] .bool [])) :
    ∀ l : List (Value G B), (∀ v ∈ l, V v t) → R (fun _ => True) (callConds (eval W C n) f l)
  | [], _ => Run.pure trivial
  | x :: l, hl => Run.bind (h.call hW hf (hl x (List.mem_cons_self ..))) fun v hv => Run.bind (Run.lift (rs_asBool hv)) fun _ _ =>
      Run.bind (Sound.conds h hW hf l fun y hy => hl y (List.mem_cons_of_mem _ hy)) fun vs hvs => Run.pure trivial

theorem Sound.any (h : Sound D bd b W C strict n) (hW : Honours D W C) {f : Value G B} {t : SType} (hf : V f (.func [t] .bool [])) :
    ∀ l : List (Value G B), (∀ v ∈ l, V v t) → R (fun _ => True) (callAny (eval W C n) f l)
  | [], _ => Run.pure trivial
  | x :: l, hl => Run.bind (h.call hW hf (hl x (List.mem_cons_self ..))) fun v hv => Run.bind (Run.lift (rs_asBool hv)) fun c _ => by
      split
      · exact Run.pure trivial
      · exact Sound.any h hW hf l fun y hy => hl y (List.mem_cons_of_mem _ hy)

theorem Sound.forAll (h : Sound D bd b W C strict n) (hW : Honours D W C) {f : Value G B} {t : SType} (hf : V f (.func [t] .bool [])) :
    ∀ l : List (Value G B), (∀ v ∈ l, V v t) → R (fun _ => True) (callForAll (eval W C n) f l)
  | [], _ => Run.pure trivial
  | x :: l, hl => Run.bind (h.call hW hf (hl x (List.mem_cons_self ..))) fun v hv => Run.bind (Run.lift (rs_asBool hv)) fun c _ => by
      split
      · exact Sound.forAll h hW hf l fun y hy => hl y (List.mem_cons_of_mem _ hy)
      · exact Run.pure trivial

theorem Sound.fold (h : Sound D bd b W C strict n) (hW : Honours D W C) {f : Value G B} {t z : SType}
    (hf : V f (.func [.tuple [z, t]] z [])) : ∀ (l : List (Value G B)) (acc : Value G B), V acc z → (∀ v ∈ l, V v t) →
    R (V · z) (callFold (eval W C n) f acc l)
  | [], acc, ha, _ => Run.pure ha
  | x :: l, acc, ha, hl => Run.bind (h.call hW hf (hasTy_pair ha (hl x (List.mem_cons_self ..)))) fun v hv =>
      Sound.fold h hW hf l v hv fun y hy => hl y (List.mem_cons_of_mem _ hy)

/-! ### Methods -/

theorem Sound.optionMap (h : Sound D bd b W C strict n) (hW : Honours D W C) {o f : Value G B} {t r : SType} (ho : V o (.option t))
    (hf : V f (.func [t] r [])) : R (V · (.option r)) (optionMapMethod (eval W C n) o [f]) := by
  unfold optionMapMethod
  refine Run.bind (Run.lift (rs_arg0 (by decide))) fun g hg => ?_
  subst hg
  split
  · cases ho with
    | none => exact Run.pure (.none r)
    | some v t hv => exact Run.bind (h.call hW hf hv) fun w hw => Run.pure (.some w r hw)
  · exact Run.err

theorem Sound.optionFilter (h : Sound D bd b W C strict n) (hW : Honours D W C) {o f : Value G B} {t : SType} (ho : V o (.option t))
    (hf : V f (.func [t] .bool [])) : R (V · (.option t)) (optionFilterMethod (eval W C n) o [f]) := by
  unfold optionFilterMethod
  refine Run.bind (Run.lift (rs_arg0 (by decide))) fun g hg => ?_
  subst hg
  split
  · cases ho with
    | none => exact Run.pure (.none t)
    | some v t hv =>
      refine Run.bind (h.call hW hf hv) fun w hw => ?_
      cases hw with
      | bool c =>
        refine Run.pure ?_
        split
        · exact .some v t hv
        · exact .none t
  · exact Run.err

theorem Sound.method (h : Sound D bd b W C strict n) (hW : Honours D W C) {t m : Byte} {actual : List SType} {sig : FuncSig}
    (hs : Expr.specialize methodTable t m actual = some sig) (hb : ¬ badMethod t m) {o : Value G B} {vs : List (Value G B)}
    (hv : HasTys D.box (LamOk D bd b Γ k) (o :: vs) actual) : R (V · sig.range) (callMethod W C (eval W C n) t m o vs) := by
  obtain ⟨raw, s, h1, h2, h3⟩ := specialize_eq hs
  rw [← h3]
  rw [← h2] at hv
  unfold callMethod
  split
  · next hc => exact absurd (.inl hc) hb
  · split
    · next hc =>
      obtain ⟨rfl, rfl⟩ := hc
      cases h1
      simp only [FuncSig.plain, SType.withSubsts, SType.withSubst] at hv ⊢
      obtain ⟨o', l, e, ho, hv⟩ := hv.cons
      cases e
      obtain ⟨a, l, rfl, ha, hv⟩ := hv.cons
      cases hv.nil
      exact h.optionMap hW ho ha
    · split
      · next hc =>
        obtain ⟨rfl, rfl⟩ := hc
        cases h1
        simp only [FuncSig.plain, SType.withSubsts, SType.withSubst] at hv ⊢
        obtain ⟨o', l, e, ho, hv⟩ := hv.cons
        cases e
        obtain ⟨a, l, rfl, ha, hv⟩ := hv.cons
        cases hv.nil
        exact h.optionFilter hW ho ha
      · next hc1 hc2 =>
        refine Run.lift (rs_pureMethod hW h1 hb (fun ht => ?_) hv)
        have hte : t = 36 := BitVec.eq_of_toNat_eq (by simpa using ht)
        subst hte
        have : optionMethods m.toNat = some raw := h1
        unfold optionMethods at this
        split at this
        · next hm => exact hc1 ⟨rfl, BitVec.eq_of_toNat_eq (by simpa using hm)⟩
        · next hm => exact hc2 ⟨rfl, BitVec.eq_of_toNat_eq (by simpa using hm)⟩
        · cases this

/-! ### Operators -/

theorem Sound.bin (h : Sound D bd b W C strict n) {o : BinK} {l r : Expr G B} (hl : Typed D (er Γ) l) (hr : Typed D (er Γ) r)
    (ho : BinOk o l.tpe r.tpe) (hkl : weight b l + top Γ ≤ k) (hkr : weight b r + top Γ ≤ k) :
    R (V · (o.resTpe l.tpe)) (evalBin C (eval W C n) o l r) := by
  unfold evalBin
  refine Run.bind (run_addCost _) fun _ _ => Run.bind (h.sub hl hkl) fun lv hlv => ?_
  generalize hlt : l.tpe = lt at ho hlv
  generalize hrt : r.tpe = rt at ho
  cases ho with
  | number t hm =>
    have hnum : ∀ rv, V rv t.stype → RS (lv.binNum o rv) (V · (o.resTpe t.stype)) := fun rv hrv => rs_binNum hm hlv hrv
    have hcmp : R (V · (o.resTpe t.stype)) (eval W C n r >>= fun rv => EvalM.lift (lv.binNum o rv)) :=
      Run.bind (h.subAs hr hkr hrt) fun rv hrv => Run.lift (hnum rv hrv)
    have hleft : R (V · (o.resTpe t.stype)) (match lv.leftNum o with
        | some f => evalAs (eval W C n) f r
        | none => EvalM.fail .unexpectedValue) := by
      cases hf : lv.leftNum o with
      | none => exact Run.err
      | some f =>
        refine h.as hr hkr hrt fun rv hrv => ?_
        have := hnum rv hrv
        unfold Value.binNum at this
        rw [hf] at this
        exact this
    simp only [List.mem_cons, List.not_mem_nil, or_false] at hm
    rcases hm with rfl | rfl | rfl | rfl | rfl | rfl | rfl | rfl | rfl | rfl | rfl | rfl | rfl | rfl
    all_goals first
      | exact hcmp
      | exact hleft
  | logic hm =>
    have hright : R (fun v : Value G B => V v .bool) (evalAs (eval W C n) Value.asBool r >>= fun c => pure (Value.bool c : Value G B)) :=
      Run.bind (h.as hr hkr hrt fun v hv => rs_asBool hv) fun c _ => Run.pure (.bool c)
    simp only [List.mem_cons, List.not_mem_nil, or_false] at hm
    rcases hm with rfl | rfl | rfl
    · refine Run.bind (Run.lift (rs_asBool hlv)) fun c _ => ?_
      split
      · exact hright
      · exact Run.pure (.bool _)
    · refine Run.bind (Run.lift (rs_asBool hlv)) fun c _ => ?_
      split
      · exact Run.pure (.bool _)
      · exact hright
    · exact Run.bind (Run.lift (rs_asBool hlv)) fun c _ => Run.bind (h.as hr hkr hrt fun v hv => rs_asBool hv) fun c _ => Run.pure (.bool _)
  | equal hm =>
    simp only [List.mem_cons, List.not_mem_nil, or_false] at hm
    rcases hm with rfl | rfl
    · exact Run.bind (h.sub hr hkr) fun rv _ => Run.pure (.bool _)
    · exact Run.bind (h.sub hr hkr) fun rv _ => Run.pure (.bool _)

theorem tpes_nil {l : List (Expr G B)} (h : Expr.tpes l = []) : l = [] := by
  cases l with
  | nil => rfl
  | cons => cases h
theorem tpes_cons {l : List (Expr G B)} {t : SType} {ts : List SType} (h : Expr.tpes l = t :: ts) :
    ∃ e l', l = e :: l' ∧ e.tpe = t ∧ Expr.tpes l' = ts := by
  cases l with
  | nil => cases h
  | cons e l => cases h; exact ⟨e, l, rfl, rfl, rfl⟩

theorem Sound.op (h : Sound D bd b W C strict n) (hW : Honours D W C) {o : SOp} {args : List (Expr G B)}
    (ha : ∀ e ∈ args, Typed D (er Γ) e) (ho : OpOk o (Expr.tpes args)) (hk : weights b args + top Γ ≤ k) :
    R (V · (o.resTpe (Expr.tpes args))) (evalOp W C (eval W C n) o args) := by
  cases hsp : o.special with
  | false =>
    rw [evalOp_strict W C _ o hsp]
    exact Run.bind (h.all args ha hk) fun vs hvs => Run.lift (rs_strictOp hW ho hsp hvs)
  | true =>
    generalize hts : Expr.tpes args = ts at ho
    cases ho
    case map t r =>
      obtain ⟨e1, l, rfl, h1, hts⟩ := tpes_cons hts
      obtain ⟨e2, l, rfl, h2, hts⟩ := tpes_cons hts
      cases tpes_nil hts
      simp only [weights] at hk
      simp only [List.mem_cons, List.not_mem_nil, or_false, forall_eq_or_imp, forall_eq] at ha
      dsimp only [evalOp]
      refine Run.bind (h.subAs ha.1 (by omega) h1) fun iv hiv => Run.bind (h.subAs ha.2 (by omega) h2) fun f hf => ?_
      rw [h2]
      exact Run.bind (Run.lift (rs_itemsOf hiv)) fun items hi => Run.bind (h.each hW hf items hi) fun vs hvs => Run.lift (rs_fromVec hvs)
    case filter t =>
      obtain ⟨e1, l, rfl, h1, hts⟩ := tpes_cons hts
      obtain ⟨e2, l, rfl, h2, hts⟩ := tpes_cons hts
      cases tpes_nil hts
      simp only [weights] at hk
      simp only [List.mem_cons, List.not_mem_nil, or_false, forall_eq_or_imp, forall_eq] at ha
      dsimp only [evalOp]
      refine Run.bind (h.subAs ha.1 (by omega) h1) fun iv hiv => Run.bind (h.subAs ha.2 (by omega) h2) fun f hf => ?_
      rw [h1]
      refine Run.bind (Run.lift (rs_itemsOf hiv)) fun items hi => Run.bind (h.conds hW hf items hi) fun bs _ => Run.lift (rs_fromVec ?_)
      intro c hc
      obtain ⟨p, hp, rfl⟩ := List.mem_map.1 hc
      exact hi _ (List.of_mem_zip (a := p.1) (b := p.2) (List.mem_filter.1 hp).1).1
    case anyOf t =>
      obtain ⟨e1, l, rfl, h1, hts⟩ := tpes_cons hts
      obtain ⟨e2, l, rfl, h2, hts⟩ := tpes_cons hts
      cases tpes_nil hts
      simp only [weights] at hk
      simp only [List.mem_cons, List.not_mem_nil, or_false, forall_eq_or_imp, forall_eq] at ha
      dsimp only [evalOp]
      refine Run.bind (h.subAs ha.1 (by omega) h1) fun iv hiv => Run.bind (h.subAs ha.2 (by omega) h2) fun f hf => ?_
      rw [h1]
      exact Run.bind (Run.lift (rs_itemsOf hiv)) fun items hi => Run.bind (h.any hW hf items hi) fun c _ => Run.pure (.bool c)
    case forAll t =>
      obtain ⟨e1, l, rfl, h1, hts⟩ := tpes_cons hts
      obtain ⟨e2, l, rfl, h2, hts⟩ := tpes_cons hts
      cases tpes_nil hts
      simp only [weights] at hk
      simp only [List.mem_cons, List.not_mem_nil, or_false, forall_eq_or_imp, forall_eq] at ha
      dsimp only [evalOp]
      refine Run.bind (h.subAs ha.1 (by omega) h1) fun iv hiv => Run.bind (h.subAs ha.2 (by omega) h2) fun f hf => ?_
      rw [h1]
      exact Run.bind (Run.lift (rs_itemsOf hiv)) fun items hi => Run.bind (h.forAll hW hf items hi) fun c _ => Run.pure (.bool c)
    case fold t z =>
      obtain ⟨e1, l, rfl, h1, hts⟩ := tpes_cons hts
      obtain ⟨e2, l, rfl, h2, hts⟩ := tpes_cons hts
      obtain ⟨e3, l, rfl, h3, hts⟩ := tpes_cons hts
      cases tpes_nil hts
      simp only [weights] at hk
      simp only [List.mem_cons, List.not_mem_nil, or_false, forall_eq_or_imp, forall_eq] at ha
      dsimp only [evalOp]
      exact Run.bind (h.subAs ha.1 (by omega) h1) fun iv hiv => Run.bind (h.subAs ha.2.1 (by omega) h2) fun zv hz =>
        Run.bind (h.subAs ha.2.2 (by omega) h3) fun f hf => Run.bind (Run.lift (rs_asColl hiv)) fun c hc => h.fold hW hf _ _ hz hc.2
    case ifOp t =>
      obtain ⟨e1, l, rfl, h1, hts⟩ := tpes_cons hts
      obtain ⟨e2, l, rfl, h2, hts⟩ := tpes_cons hts
      obtain ⟨e3, l, rfl, h3, hts⟩ := tpes_cons hts
      cases tpes_nil hts
      simp only [weights] at hk
      simp only [List.mem_cons, List.not_mem_nil, or_false, forall_eq_or_imp, forall_eq] at ha
      dsimp only [evalOp]
      refine Run.bind (h.as ha.1 (by omega) h1 fun v hv => rs_asBool hv) fun c _ => ?_
      split
      · exact h.subAs ha.2.1 (by omega) h2
      · exact h.subAs ha.2.2 (by omega) h3
    case treeLookup =>
      obtain ⟨e1, l, rfl, h1, hts⟩ := tpes_cons hts
      obtain ⟨e2, l, rfl, h2, hts⟩ := tpes_cons hts
      obtain ⟨e3, l, rfl, h3, hts⟩ := tpes_cons hts
      cases tpes_nil hts
      simp only [weights] at hk
      simp only [List.mem_cons, List.not_mem_nil, or_false, forall_eq_or_imp, forall_eq] at ha
      dsimp only [evalOp]
      exact Run.bind (h.as ha.1 (by omega) h1 fun v hv => rs_asAvl hv) fun _ _ =>
        Run.bind (h.as ha.2.1 (by omega) h2 fun v hv => rs_asBytes hv) fun _ _ =>
        Run.bind (h.as ha.2.2 (by omega) h3 fun v hv => rs_asBytes hv) fun _ _ =>
        Run.bind (Run.lift (rs_avlLookup _ _ _ _)) fun _ _ => Run.pure (hasTy_optBytes _)
    case createProveDhTuple =>
      obtain ⟨e1, l, rfl, h1, hts⟩ := tpes_cons hts
      obtain ⟨e2, l, rfl, h2, hts⟩ := tpes_cons hts
      obtain ⟨e3, l, rfl, h3, hts⟩ := tpes_cons hts
      obtain ⟨e4, l, rfl, h4, hts⟩ := tpes_cons hts
      cases tpes_nil hts
      simp only [weights] at hk
      simp only [List.mem_cons, List.not_mem_nil, or_false, forall_eq_or_imp, forall_eq] at ha
      dsimp only [evalOp]
      exact Run.bind (h.as ha.1 (by omega) h1 fun v hv => rs_asPoint hv) fun _ _ =>
        Run.bind (h.as ha.2.1 (by omega) h2 fun v hv => rs_asPoint hv) fun _ _ =>
        Run.bind (h.as ha.2.2.1 (by omega) h3 fun v hv => rs_asPoint hv) fun _ _ =>
        Run.bind (h.as ha.2.2.2 (by omega) h4 fun v hv => rs_asPoint hv) fun _ _ => Run.pure (.sigmaProp _)
    all_goals cases hsp

/-! ### All nodes -/

theorem weight_le_weights {e : Expr G B} : ∀ {l : List (Expr G B)}, e ∈ l → weight b e ≤ weights b l
  | x :: l, h => by
    rcases List.mem_cons.1 h with rfl | h
    · simp only [weights]; omega
    · have := weight_le_weights h
      simp only [weights]; omega

theorem hasTys_all {L : List (BitVec 32 × SType) → Expr G B → Prop} {t : SType} : ∀ {l : List (Expr G B)} {vs : List (Value G B)},
    HasTys D.box L vs (Expr.tpes l) → (∀ e ∈ l, e.tpe = t) → ∀ v ∈ vs, HasTy D.box L v t
  | [], vs, h, _ => by cases h.nil; simp
  | e :: l, vs, h, ht => by
    obtain ⟨v, vs', rfl, h1, h2⟩ := h.cons
    intro w hw
    rcases List.mem_cons.1 hw with rfl | hw
    · exact ht e (List.mem_cons_self ..) ▸ h1
    · exact hasTys_all h2 (fun x hx => ht x (List.mem_cons_of_mem _ hx)) w hw

theorem hasTy_tup {L : List (BitVec 32 × SType) → Expr G B → Prop} {vs : List (Value G B)} {ts : List SType} (h : HasTys D.box L vs ts) :
    HasTy D.box L (.tup vs) (.tuple ts) := by
  refine .tup vs ts h.length_eq ?_
  induction h with
  | nil => intro i v t hv; simp at hv
  | cons h1 _ ih =>
    intro i v t hv ht
    cases i with
    | zero => cases hv; cases ht; exact h1
    | succ i => exact ih i v t (by simpa using hv) (by simpa using ht)

/-- Code from outside runs in the empty scope. -/
theorem Sound.code (h : Sound D bd b W C strict n) (hW : Honours D W C) {e : Expr G B} (he : Typed D [] e) (hk : bd → weight b e ≤ k) :
    R (V · e.tpe) (eval W C n e) := by
  intro s hs
  have hi := h [] e he s ⟨EnvOk.nil, hs.2⟩
  have hkeep : ∀ a s', eval W C n e s = .ok (a, s') → ScopeInv D bd b Γ s' := fun a s' hm =>
    ScopeInv.keep (keepL_rel hW n e he.tidy) (tidyL_rel hW n e he.tidy) hs hm
  cases hm : eval W C n e s with
  | ok p =>
    obtain ⟨v, s1⟩ := p
    rw [hm] at hi
    refine ⟨hi.1.mono fun a x hl => ?_, hkeep v s1 hm⟩
    obtain ⟨Γ1, Γ2, e0, h1, h2⟩ := hl
    cases Γ1 <;> cases e0
    exact ⟨Γ, [], by simp, h1, fun hb => by have h3 := h2 hb; have h4 := hk hb; simp only [top] at h3 ⊢; omega⟩
  | err x => rw [hm] at hi; exact hi
  | panic => trivial
  | out =>
    rw [hm] at hi
    intro hb
    have h3 := hi hb
    have h4 := hk hb
    simp only [top] at h3
    omega

theorem Sound.step (h : Sound D bd b W C strict n) (hW : Honours D W C) (hX : strict → ExactVars D C) (hS : bd → SmallCode D W C b)
    {e : Expr G B} (hT : Typed D (er Γ) e) (hk : weight b e + top Γ ≤ k + 1) :
    R (HasTy D.box (LamOk D bd b Γ (k + 1)) · e.tpe) (step W C (eval W C n) e) := by
  have hT' := hT
  by_cases hfn : ∃ args body, e = .func args body
  · obtain ⟨args, body, rfl⟩ := hfn
    simp only [weight] at hk
    exact Run.pure (.lam args body ⟨[], Γ, rfl, hT', fun _ => by omega⟩)
  refine Run.mono (Q := (V · e.tpe)) ?_ id fun v hv => hv.mono fun _ _ hl => hl.up (by omega)
  cases hT with
  | const _ c hc => exact Run.pure (hasTy_ofLiteral _ _ hc)
  | valUse _ id t hm =>
    intro s hs
    simp only [er, List.mem_map] at hm
    obtain ⟨x, hx, e⟩ := hm
    cases e
    obtain ⟨Γ1, Γ2, rfl⟩ := List.append_of_mem hx
    obtain ⟨v, h1, h2⟩ := hs.1 Γ1 x Γ2 rfl
    have : Verif.step W C (eval W C n) (.valUse x.id x.tpe) s = .ok (v, s) := by
      show useVar x.id s = _
      unfold useVar
      rw [h1]
    rw [this]
    refine ⟨h2.mono fun a y hl => ?_, hs⟩
    have h3 := hl.mono (Γ' := Γ1 ++ [x]) (k' := k) (by
      have := depth_le_top Γ1 x Γ2
      simp only [weight] at hk
      omega)
    simpa using h3
  | bools _ l => exact Run.pure (hasTy_map (by simp) fun _ => .bool _)
  | op _ o args ha ho =>
    simp only [weight] at hk
    exact h.op hW ha ho (by omega)
  | bin _ o l r hl hr ho =>
    simp only [weight] at hk
    exact h.bin hl hr ho (by omega) (by omega)
  | cast _ up e t he =>
    simp only [weight] at hk
    exact Run.bind (h.sub he (by omega)) fun v hv => Run.lift (rs_cast up t _ hv)
  | extractReg _ e r t he hb hr =>
    simp only [weight] at hk
    exact Run.bind (h.as he (by omega) hb fun v hv => rs_asBox hv) fun x hx => Run.lift (rs_regOption hW hr hx)
  | selectField _ e i ts he ht hi =>
    simp only [weight] at hk
    refine Run.bind (h.subAs he (by omega) ht) fun v hv => ?_
    cases hv with
    | tup items _ hl hv =>
      refine Run.lift (RS.ofOption fun a ha => ?_)
      have hts : ts[i.toNat - 1]? = some ts[i.toNat - 1] := List.getElem?_eq_getElem hi
      have : (Expr.selectField e i).tpe = ts[i.toNat - 1] := by simp only [Expr.tpe, ht, hts, Option.getD_some]
      rw [this]
      exact hv _ a _ ha hts
  | getVar _ id t hv =>
    dsimp only [Verif.step]
    split
    · exact Run.pure (.none t)
    · next c hc =>
      split
      · next hb => exact Run.pure (.some _ t (hasTy_ofLiteral _ _ (hW.var id t hv c hc ((SType.beq_iff _ _).1 hb))))
      · next hb => exact Run.fail fun hs => absurd ((SType.beq_iff _ _).2 (hX hs id t hv c hc)) hb
  | deserCtx _ t id hc =>
    simp only [weight] at hk
    exact Run.bind (Run.lift (rs_contextExpr hW hS hc)) fun e he =>
      he.2.1 ▸ h.code hW he.1 fun hb => by have := he.2.2 hb; omega
  | deserReg _ r t d hd hc =>
    simp only [weight] at hk
    refine Run.bind (Run.lift (rs_registerExpr hW hS hc)) fun e he => ?_
    rcases he.2 with h1 | h1
    · exact he.1 ▸ h.code hW h1.1 fun hb => by have := h1.2 hb; omega
    · have := weight_le_weights (b := b) h1
      exact h.subAs (hd e h1) (by omega) he.1
  | byIndex _ e i d t he hi hd ht hit hdt =>
    simp only [weight] at hk
    have htp : (Expr.byIndex e i d).tpe = t := by simp only [Expr.tpe, ht, SType.postEval]
    rw [htp]
    refine Run.bind (h.subAs he (by omega) ht) fun iv hiv => Run.bind (h.subAs hi (by omega) hit) fun ix hix =>
      Run.bind (Run.lift (rs_asColl hiv)) fun c hc => ?_
    split
    · exact Run.bind (Run.lift (rs_asInt hix)) fun j _ => Run.lift (RS.ofOption fun a ha => hc.2 _ (List.mem_of_getElem? ha))
    · next x _ =>
      simp only [weights] at hk
      refine Run.bind (h.subAs (hd x (List.mem_cons_self ..)) (by omega) (hdt x (List.mem_cons_self ..))) fun dv hdv =>
        Run.bind (Run.lift (rs_asInt hix)) fun j _ => Run.pure ?_
      cases hx : c.2[usizeOf j]? with
      | none => exact hdv
      | some a => exact hc.2 _ (List.mem_of_getElem? hx)
  | createAvl _ f d kl v hf hd hkl hv h1 h2 h3 h4 =>
    simp only [weight] at hk
    refine Run.bind (h.as hf (by omega) h1 fun v hv => rs_asByte hv) fun _ _ =>
      Run.bind (h.as hd (by omega) h2 fun v hv => rs_asBytes hv) fun _ _ =>
      Run.bind (h.as hkl (by omega) h3 fun v hv => rs_asInt hv) fun _ _ => ?_
    split
    · exact Run.lift (rs_mkAvl _ _ _ _)
    · next x _ =>
      simp only [weights] at hk
      exact Run.bind (h.as (hv x (List.mem_cons_self ..)) (by omega) (h4 x (List.mem_cons_self ..)) fun v hv => rs_asInt hv) fun _ _ =>
        Run.lift (rs_mkAvl _ _ _ _)
  | coll _ t items hi ht =>
    simp only [weight] at hk
    exact Run.bind (h.all items hi (by omega)) fun vs hvs => Run.lift (rs_fromVec (hasTys_all hvs ht))
  | tuple _ items hi =>
    simp only [weight] at hk
    exact Run.bind (h.all items hi (by omega)) fun vs hvs => Run.pure (hasTy_tup hvs)
  | sigma _ isAnd items hi ht =>
    simp only [weight] at hk
    exact Run.bind (h.all items hi (by omega)) fun vs hvs =>
      Run.bind (Run.lift (RS.mapAll (fun v hv => rs_asSigma hv) _ (hasTys_all hvs ht))) fun _ _ =>
      Run.bind (Run.lift (RS.ofOutcome fun _ _ => trivial)) fun _ _ => Run.pure (.sigmaProp _)
  | func _ args body => exact absurd ⟨_, _, rfl⟩ hfn
  | apply _ f args r hf ha ht =>
    simp only [weight] at hk
    have htp : (Expr.apply f args).tpe = r := by simp only [Expr.tpe, ht]
    rw [htp]
    exact Run.bind (h.subAs hf (by omega) ht) fun fv hfv => Run.bind (h.all args ha (by omega)) fun vs hvs => h.apply hW hfv hvs
  | block _ defs r hd hf hr hn =>
    simp only [weight] at hk
    exact h.block hW hT' hd hf hr hn (by omega)
  | method _ t m sig o args ho ha hs hb =>
    simp only [weight] at hk
    exact Run.bind (h.sub ho (by omega)) fun ov hov => Run.bind (h.all args ha (by omega)) fun vs hvs =>
      h.method hW hs hb (List.Forall₂.cons hov hvs)
  | property _ t m sig o ho hs hb =>
    simp only [weight] at hk
    exact Run.bind (h.sub ho (by omega)) fun ov hov => h.method hW hs hb (List.Forall₂.cons hov List.Forall₂.nil)

/-- Typed scripts run well. -/
theorem sound (hW : Honours D W C) (hX : strict → ExactVars D C) (hS : bd → SmallCode D W C b) : ∀ n, Sound D bd b W C strict n
  | 0 => by
    intro Γ e hT s hs
    show bd → 0 < weight b e + top Γ
    intro _
    have : 0 < weight b e := by cases e <;> simp only [weight] <;> omega
    omega
  | n + 1 => by
    intro Γ e hT
    rw [eval_succ]
    refine Run.bind (run_addCost _) fun _ _ => ?_
    have h0 : 0 < weight b e := by cases e <;> simp only [weight] <;> omega
    refine ((sound hW hX hS n).step (k := weight b e + top Γ - 1) hW hX hS hT (by omega)).mono (fun h hb => by have := h hb; omega)
      fun v hv => hv.mono fun _ _ hl => hl.up (by omega)

end Steps
end Verif
