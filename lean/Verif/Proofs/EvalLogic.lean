import Verif.Proofs.EvalM
import Verif.Spec.Scope

set_option linter.unusedSimpArgs false
set_option linter.unusedVariables false

/-!
# A program logic for the interpreter

`EvLogic` is a relation between two evaluation routines that is closed under the ways the interpreter puts routines together;
`EvLogic.step` says that then the interpreter respects it.
-/

namespace Verif
open Spec
variable {G B T α β : Type}

namespace Spec

theorem Everywhere.here {N : Expr G B → Prop} {e : Expr G B} (h : Everywhere N e) : N e := by cases h; assumption
theorem Everywhere.child {N : Expr G B → Prop} {e c : Expr G B} (h : Everywhere N e) (hc : c ∈ children e) : Everywhere N c := by
  cases h with | mk _ b => exact b c hc
theorem AllLam.lam {L : List (BitVec 32 × SType) → Expr G B → Prop} {args : List (BitVec 32 × SType)} {body : Expr G B}
    (h : AllLam L (.lam args body)) : L args body := by cases h with | mk a _ => exact a _ _ rfl
theorem AllLam.part {L : List (BitVec 32 × SType) → Expr G B → Prop} {v c : Value G B} (h : AllLam L v) (hc : c ∈ parts v) :
    AllLam L c := by cases h with | mk _ b => exact b c hc

end Spec

/-- The result does not depend on the budget of nested calls. -/
def NO (r : Res α) : Prop := r ≠ .out

namespace NO
@[simp] theorem ok {a : α} : NO (.ok a) := by simp [NO]
@[simp] theorem pure {a : α} : NO (Pure.pure a) := by simp [NO]
@[simp] theorem err {e : EvalErr} : NO (.err e : Res α) := by simp [NO]
@[simp] theorem panic : NO (.panic : Res α) := by simp [NO]
theorem bind {m : Res α} {f : α → Res β} (h : NO m) (h' : ∀ a, NO (f a)) : NO (m >>= f) := by
  cases m with
  | ok a => exact h' a
  | err e => exact err
  | panic => exact panic
  | out => exact absurd rfl h
@[simp] theorem ofOption {e : EvalErr} {o : Option α} : NO (Res.ofOption e o) := by cases o <;> simp [Res.ofOption]
@[simp] theorem ofOutcome {e : EvalErr} {o : Outcome α} : NO (Res.ofOutcome e o) := by cases o <;> simp [Res.ofOutcome]
theorem mapAll {f : α → Res β} (h : ∀ a, NO (f a)) : ∀ l, NO (Res.mapAll f l)
  | [] => ok
  | a :: l => bind (h a) fun b => bind (mapAll h l) fun _ => pure

/-- Take a computation apart. -/
macro "noout" : tactic => `(tactic| repeat' (first
  | exact NO.ok | exact NO.pure | exact NO.err | exact NO.panic | exact NO.ofOption | exact NO.ofOutcome
  | with_reducible refine NO.bind ?_ (fun _ => ?_) | split))

@[simp] theorem asBool (v : Value G B) : NO v.asBool := by unfold Value.asBool; noout
@[simp] theorem asByte (v : Value G B) : NO v.asByte := by unfold Value.asByte; noout
@[simp] theorem asShort (v : Value G B) : NO v.asShort := by unfold Value.asShort; noout
@[simp] theorem asInt (v : Value G B) : NO v.asInt := by unfold Value.asInt; noout
@[simp] theorem asLong (v : Value G B) : NO v.asLong := by unfold Value.asLong; noout
@[simp] theorem asBigInt (v : Value G B) : NO v.asBigInt := by unfold Value.asBigInt; noout
@[simp] theorem asPoint (v : Value G B) : NO v.asPoint := by unfold Value.asPoint; noout
@[simp] theorem asSigma (v : Value G B) : NO v.asSigma := by unfold Value.asSigma; noout
@[simp] theorem asBox (v : Value G B) : NO v.asBox := by unfold Value.asBox; noout
@[simp] theorem asHeader (v : Value G B) : NO v.asHeader := by unfold Value.asHeader; noout
@[simp] theorem asPreHeader (v : Value G B) : NO v.asPreHeader := by unfold Value.asPreHeader; noout
@[simp] theorem asAvl (v : Value G B) : NO v.asAvl := by unfold Value.asAvl; noout
@[simp] theorem asBytes (v : Value G B) : NO v.asBytes := by unfold Value.asBytes; noout
@[simp] theorem asColl (v : Value G B) : NO v.asColl := by unfold Value.asColl; noout
theorem asVecOf {f : Value G B → Res α} (h : ∀ v, NO (f v)) (v : Value G B) : NO (v.asVecOf f) := by
  unfold Value.asVecOf
  split
  · exact mapAll h _
  · exact err
@[simp] theorem asBytesPair (v : Value G B) : NO v.asBytesPair := by
  unfold Value.asBytesPair
  split
  · refine bind (asBytes _) fun _ => ?_
    split
    · exact bind (asBytes _) fun _ => pure
    · exact err
  · exact err
@[simp] theorem vecBool (v : Value G B) : NO (v.asVecOf Value.asBool) := asVecOf asBool v
@[simp] theorem vecInt (v : Value G B) : NO (v.asVecOf Value.asInt) := asVecOf asInt v
@[simp] theorem vecBytes (v : Value G B) : NO (v.asVecOf Value.asBytes) := asVecOf asBytes v
@[simp] theorem vecPair (v : Value G B) : NO (v.asVecOf Value.asBytesPair) := asVecOf asBytesPair v
@[simp] theorem mapSigma (l : List (Value G B)) : NO (Res.mapAll Value.asSigma l) := mapAll asSigma l
@[simp] theorem mapByte (l : List (Value G B)) : NO (Res.mapAll Value.asByte l) := mapAll asByte l
@[simp] theorem mapBytes (l : List (Value G B)) : NO (Res.mapAll Value.asBytes l) := mapAll asBytes l
@[simp] theorem argOf {e : EvalErr} {i : Nat} {l : List (Value G B)} : NO (Value.argOf e i l) := ofOption
@[simp] theorem toLong (b : Bytes) : NO (bytesToLong b) := by unfold bytesToLong; noout
@[simp] theorem toBig (b : Bytes) : NO (bytesToBigInt b) := by unfold bytesToBigInt; noout
@[simp] theorem regId (b : Byte) : NO (RegId.ofI8 b) := by unfold RegId.ofI8; noout
@[simp] theorem avlLookup (W : World G B T) (t : AvlTreeData) (k p : Bytes) : NO (Value.avlLookup W t k p) := by
  unfold Value.avlLookup; noout
@[simp] theorem substLoop (n : Nat) : ∀ (l : List (BitVec 32 × Constant G B)) (t : ETree G B), NO (Value.substLoop n l t)
  | [], t => ok
  | (i, c) :: l, t => by
    unfold Value.substLoop
    split
    · exact bind ofOption fun t' => substLoop n l t'
    · exact err
@[simp] theorem deserialize [DecidableEq G] (W : World G B T) (t : SType) (c : Constant G B) : NO (Verif.deserialize W t c) := by
  unfold Verif.deserialize
  split
  · refine bind (by simp) fun b => ?_
    noout
  · exact err
theorem contextExpr [DecidableEq G] (W : World G B T) (C : EvalCtx G B) (t : SType) (id : Byte) : NO (Verif.contextExpr W C t id) := by
  unfold Verif.contextExpr
  split
  · exact deserialize _ _ _
  · exact err
theorem registerExpr [DecidableEq G] (W : World G B T) (C : EvalCtx G B) (reg : Byte) (t : SType) (d : List (Expr G B)) :
    NO (Verif.registerExpr W C reg t d) := by
  unfold Verif.registerExpr
  refine bind (by simp) fun id => ?_
  split
  · exact deserialize _ _ _
  · exact panic
  · unfold defaultExpr
    noout
end NO

/-- `Q` holds of the result, if there is one. -/
def RP (r : Res α) (Q : α → Prop) : Prop := NO r ∧ ∀ a, r = .ok a → Q a

namespace RP
theorem ok {a : α} {Q : α → Prop} (h : Q a) : RP (.ok a) Q := ⟨.ok, by intro b hb; cases hb; exact h⟩
theorem pure {a : α} {Q : α → Prop} (h : Q a) : RP (Pure.pure a) Q := RP.ok h
theorem err {e : EvalErr} {Q : α → Prop} : RP (.err e) Q := ⟨.err, by intro b hb; cases hb⟩
theorem panic {Q : α → Prop} : RP .panic Q := ⟨.panic, by intro b hb; cases hb⟩
theorem bind {m : Res α} {f : α → Res β} {Q : α → Prop} {Q' : β → Prop} (h : RP m Q) (h' : ∀ a, Q a → RP (f a) Q') :
    RP (m >>= f) Q' := by
  cases m with
  | ok a => exact h' a (h.2 a rfl)
  | err e => exact err
  | panic => exact panic
  | out => exact absurd rfl h.1
theorem any {m : Res α} (h : NO m) : RP m fun _ => True := ⟨h, fun _ _ => trivial⟩
theorem bind' {m : Res α} {f : α → Res β} {Q' : β → Prop} (h : NO m) (h' : ∀ a, RP (f a) Q') : RP (m >>= f) Q' :=
  bind (any h) fun a _ => h' a
theorem ofOption {e : EvalErr} {o : Option α} {Q : α → Prop} (h : ∀ a, o = some a → Q a) : RP (Res.ofOption e o) Q :=
  ⟨.ofOption, fun a ha => h a (Res.ofOption_eq_ok.1 ha)⟩
end RP

section Ops
variable {L : List (BitVec 32 × SType) → Expr G B → Prop}

local notation "V" => AllLam L

theorem allLam_of_parts {v : Value G B} (h : ∀ args body, v ≠ .lam args body) (hp : ∀ c ∈ parts v, V c) : V v :=
  .mk (fun a b e => absurd e (h a b)) hp

theorem allLam_coll {t : SType} {l : List (Value G B)} (h : ∀ c ∈ l, V c) : V (.coll t l) := allLam_of_parts (by simp) h
theorem allLam_tup {l : List (Value G B)} (h : ∀ c ∈ l, V c) : V (.tup l) := allLam_of_parts (by simp) h
theorem allLam_some {v : Value G B} (h : V v) : V (.some v) := allLam_of_parts (by simp) (by simpa [parts] using h)

/-- A value without parts that is not a function. -/
macro "ground" : tactic => `(tactic| (refine allLam_of_parts ?_ ?_ <;> (simp [parts, Value.ofOption]; done)))

theorem allLam_ofOption {o : Option (Value G B)} (h : ∀ v, o = some v → V v) : V (Value.ofOption o) := by
  cases o with
  | none => ground
  | some v => exact allLam_some (h v rfl)

theorem allLam_ofLiteral (l : Literal G B) : V (Value.ofLiteral l) := by
  refine Literal.rec (motive_1 := fun l => V (Value.ofLiteral l)) (motive_2 := fun l => ∀ c ∈ Value.ofLiterals l, V c)
    ?_ ?_ ?_ ?_ ?_ ?_ ?_ ?_ ?_ ?_ ?_ ?_ ?_ ?_ ?_ ?_ ?_ ?_ l
  all_goals try (intros; unfold Value.ofLiteral; ground)
  · intro t l ih; exact allLam_coll ih
  · intro l ih; exact allLam_tup ih
  · intro v ih; exact allLam_some ih
  · simp [Value.ofLiterals]
  · intro x l h1 h2
    simp only [Value.ofLiterals, List.mem_cons]
    rintro c (rfl | h)
    · exact h1
    · exact h2 c h

theorem rp_asColl {v : Value G B} (h : V v) : RP v.asColl fun p => ∀ c ∈ p.2, V c := by
  apply RP.ofOption
  intro p hp
  cases v <;> simp [Value.collParts] at hp
  · subst hp
    intro c hc
    simp only [List.mem_map] at hc
    obtain ⟨b, _, rfl⟩ := hc
    ground
  · subst hp; exact fun c hc => h.part hc

theorem rp_fromVec {t : SType} {l : List (Value G B)} (h : ∀ c ∈ l, V c) : RP (Value.fromVec t l) V := by
  unfold Value.fromVec
  split
  · refine RP.bind' (by simp) fun b => ?_; apply RP.pure; ground
  · exact RP.ok (allLam_coll h)

theorem rp_fromVecVec {t : SType} {l : List (Value G B)} (h : ∀ c ∈ l, V c) : RP (Value.fromVecVec t l) V := by
  unfold Value.fromVecVec
  split
  · refine RP.bind' (by simp) fun b => ?_; apply RP.pure; ground
  · refine ⟨NO.bind (NO.mapAll (fun v => NO.asVecOf (fun _ => NO.ok) v) _) fun _ => NO.pure, fun r hr => ?_⟩
    obtain ⟨ls, h1, h2⟩ := Res.bind_eq_ok.1 hr
    cases h2
    apply allLam_coll
    have h3 := Res.mapAll_eq_ok.1 h1
    have hid : ∀ (l r : List (Value G B)), Res.mapAll Res.ok l = .ok r → r = l := by
      intro l
      induction l with
      | nil => intro r hr; cases hr; rfl
      | cons a l ih =>
        intro r hr
        obtain ⟨b, hb, hr⟩ := Res.bind_eq_ok.1 hr
        obtain ⟨bs, hbs, hr⟩ := Res.bind_eq_ok.1 hr
        cases hr; cases hb; rw [ih _ hbs]
    intro c hc
    obtain ⟨x, hx, hcx⟩ := List.mem_flatten.1 hc
    clear hr h1 hc
    induction h3 with
    | nil => simp at hx
    | cons hab hrest ih =>
      rename_i a b la lb
      rcases List.mem_cons.1 hx with rfl | hx
      · cases a <;> simp [Value.asVecOf] at hab
        have := hid _ _ hab
        subst this
        exact (h _ (List.mem_cons_self ..)).part hcx
      · exact ih (fun c hc => h c (List.mem_cons_of_mem _ hc)) hx

theorem rp_argOf {e : EvalErr} {i : Nat} {args : List (Value G B)} (h : ∀ v ∈ args, V v) : RP (Value.argOf e i args) V :=
  RP.ofOption fun a ha => h a (List.mem_of_getElem? ha)

theorem rp_updateLoop : ∀ (ups : List (BitVec 32 × Value G B)) (l : List (Value G B)), (∀ p ∈ ups, V p.2) → (∀ c ∈ l, V c) →
    RP (Value.updateLoop ups l) fun r => ∀ c ∈ r, V c
  | [], l, _, h => RP.ok h
  | (i, v) :: rest, l, hu, h => by
    unfold Value.updateLoop
    split
    · apply rp_updateLoop rest _ (fun p hp => hu p (List.mem_cons_of_mem _ hp))
      intro c hc
      rcases List.mem_or_eq_of_mem_set hc with hc | rfl
      · exact h c hc
      · exact hu _ (List.mem_cons_self ..)
    · exact RP.err

theorem rp_regOption (o : BoxOps G B) (b : B) (reg : Byte) : RP (Value.regOption o b reg) V := by
  unfold Value.regOption
  refine RP.bind' (by simp) fun id => ?_
  refine RP.bind' (by simp) fun c => ?_
  apply RP.pure
  apply allLam_ofOption
  intro v hv
  cases c with
  | none => cases hv
  | some c => cases hv; exact allLam_ofLiteral _

/-- Take a computation apart; every result is a value without parts that is not a function. -/
macro "flat" : tactic => `(tactic| repeat' (first
  | exact RP.err | exact RP.panic
  | ((with_reducible refine RP.bind' ?_ ?_); (focus (simp; done)); intro _)
  | (with_reducible apply RP.pure; first | ground | fail)
  | (with_reducible apply RP.ok; first | ground | fail)
  | split))

theorem rp_finish {α : Type} (o : NumOps G B α) (hw : ∀ a, V (o.wrap a)) (r : Option α) : RP (o.finish r) V := by
  unfold NumOps.finish
  split
  · exact RP.ok (hw _)
  · exact RP.err

theorem rp_apply {α : Type} (o : NumOps G B α) (hx : ∀ v, NO (o.extract v)) (hw : ∀ a, V (o.wrap a)) (k : BinK) (l : α) (v : Value G B) :
    RP (o.apply k l v) V := by
  unfold NumOps.apply
  refine RP.bind' (hx v) fun r => ?_
  split
  all_goals first
    | exact rp_finish o hw _
    | exact RP.err
    | exact RP.ok (hw _)
    | (apply RP.ok; ground)

theorem rp_leftNum {v : Value G B} {k : BinK} {f : Value G B → Res (Value G B)} (h : v.leftNum k = some f) (w : Value G B) :
    RP (f w) V := by
  cases v <;> simp only [Value.leftNum, Option.some.injEq, reduceCtorEq] at h <;> subst h <;> apply rp_apply <;> intro a
  all_goals first
    | (show NO (Value.asByte _); simp; done)
    | (show NO (Value.asShort _); simp; done)
    | (show NO (Value.asInt _); simp; done)
    | (show NO (Value.asLong _); simp; done)
    | (show NO (Value.asBigInt _); simp; done)
    | (show V (Value.byte _); ground)
    | (show V (Value.short _); ground)
    | (show V (Value.int _); ground)
    | (show V (Value.long _); ground)
    | (show V (Value.bigInt _); ground)

theorem rp_binNum (v w : Value G B) (k : BinK) : RP (v.binNum k w) V := by
  unfold Value.binNum
  split
  · next f h => exact rp_leftNum h w
  · exact RP.err

theorem rp_negate (v : Value G B) : RP v.negate V := by
  unfold Value.negate
  split
  all_goals first
    | exact RP.err
    | (apply rp_finish; intro a; show V (Value.byte _); ground)
    | (apply rp_finish; intro a; show V (Value.short _); ground)
    | (apply rp_finish; intro a; show V (Value.int _); ground)
    | (apply rp_finish; intro a; show V (Value.long _); ground)
    | (apply rp_finish; intro a; show V (Value.bigInt _); ground)

theorem rp_invert (v : Value G B) : RP v.invert V := by
  unfold Value.invert
  flat

theorem rp_cast (up : Bool) (t : SType) (v : Value G B) : RP (if up then Value.upcast t v else Value.downcast t v) V := by
  unfold Value.upcast Value.downcast Value.narrow
  flat

theorem rp_substConstants [DecidableEq G] (W : World G B T) (a b c : Value G B) : RP (Value.substConstants W a b c) V := by
  unfold Value.substConstants
  flat

theorem rp_atleast (k : BitVec 32) (l : List (SigmaBoolean G)) : RP (Value.atleast k l : Res (Value G B)) V := by
  unfold Value.atleast
  flat

theorem rp_propBytes [DecidableEq G] (W : World G B T) (p : SigmaBoolean G) : RP (Value.propBytes W p) V := by
  unfold Value.propBytes
  flat

theorem allLam_boxes {α : Type} (l : List α) (f : α → Value G B) (h : ∀ a, V (f a)) : ∀ c ∈ l.map f, V c := by
  intro c hc
  obtain ⟨a, _, rfl⟩ := List.mem_map.1 hc
  exact h a

theorem rp_strictOp [DecidableEq G] (W : World G B T) (C : EvalCtx G B) (o : SOp) (vs : List (Value G B)) (h : ∀ v ∈ vs, V v) :
    RP (Value.strictOp W C o vs) V := by
  unfold Value.strictOp
  split
  all_goals try (flat; done)
  all_goals try (first | exact rp_negate _ | exact rp_invert _ | exact rp_substConstants _ _ _ _)
  · exact RP.ok (allLam_coll (allLam_boxes _ _ fun a => by ground))
  · exact RP.ok (allLam_coll (allLam_boxes _ _ fun a => by ground))
  · flat
    exact RP.ok ((h _ (List.mem_cons_self ..)).part (by simp [parts]))
  · flat
    · exact RP.ok ((h _ (List.mem_cons_self ..)).part (by simp [parts]))
    · exact RP.ok (h _ (by simp))
  · flat
    refine RP.ok (allLam_tup ?_)
    simp only [List.mem_cons, List.not_mem_nil, or_false]
    rintro c (rfl | rfl) <;> ground
  · flat
    exact rp_propBytes _ _
  · refine RP.bind (rp_asColl (h _ (by simp))) fun x hx => RP.bind (rp_asColl (h _ (by simp))) fun y hy => ?_
    split
    · apply rp_fromVec
      intro c hc
      rcases List.mem_append.1 hc with hc | hc
      · exact hx c hc
      · exact hy c hc
    · exact RP.err
  · flat
    exact rp_atleast _ _
  · refine RP.bind (rp_asColl (h _ (by simp))) fun x hx => ?_
    refine RP.bind' (by simp) fun a => ?_
    refine RP.bind' (by simp) fun b => ?_
    apply rp_fromVec
    intro c hc
    apply hx
    unfold Value.sliceItems at hc
    dsimp only at hc
    generalize usizeOf _ = i at hc
    generalize usizeOf _ = j at hc
    split at hc
    · exact List.mem_of_mem_take (List.mem_of_mem_drop hc)
    · simp at hc

theorem rp_avlModify (W : World G B T) (t : AvlTreeData) (p : Bytes) (ops : List AvlOp) : RP (Value.avlModify W t p ops) V := by
  unfold Value.avlModify
  flat
  exact RP.ok (allLam_some (by ground))

theorem rp_avlMethod (W : World G B T) (m : Nat) (obj : Value G B) (args : List (Value G B)) : RP (Value.avlMethod W m obj args) V := by
  unfold Value.avlMethod
  flat
  all_goals try exact rp_avlModify _ _ _ _
  · apply RP.pure
    apply allLam_ofOption
    intro v hv
    simp only [Option.map_eq_some_iff] at hv
    obtain ⟨a, _, rfl⟩ := hv
    ground
  · apply RP.pure
    apply allLam_ofOption
    intro v hv
    simp only [Option.map_eq_some_iff] at hv
    obtain ⟨a, _, rfl⟩ := hv
    ground
  · apply RP.pure
    apply allLam_coll
    apply allLam_boxes
    intro a
    apply allLam_ofOption
    intro v hv
    simp only [Option.map_eq_some_iff] at hv
    obtain ⟨a, _, rfl⟩ := hv
    ground

theorem rp_headerMethod (W : World G B T) (m : Nat) (obj : Value G B) : RP (Value.headerMethod W m obj) V := by
  unfold Value.headerMethod
  flat

theorem rp_preHeaderMethod (m : Nat) (obj : Value G B) : RP (Value.preHeaderMethod m obj) V := by
  unfold Value.preHeaderMethod
  flat

theorem rp_contextMethod [DecidableEq B] (C : EvalCtx G B) (m : Nat) (obj : Value G B) : RP (Value.contextMethod C m obj) V := by
  unfold Value.contextMethod
  flat
  · exact RP.ok (allLam_coll (allLam_boxes _ _ fun a => by ground))
  · exact RP.ok (allLam_coll (allLam_boxes _ _ fun a => by ground))

theorem rp_pureMethod [DecidableEq G] [DecidableEq B] [DecidableEq (Value G B)] (W : World G B T) (C : EvalCtx G B) (t m : Nat)
    (obj : Value G B) (args : List (Value G B)) (ho : V obj) (ha : ∀ v ∈ args, V v) : RP (Value.pureMethod W C t m obj args) V := by
  unfold Value.pureMethod
  split
  · exact rp_avlMethod _ _ _ _
  · exact rp_contextMethod _ _ _
  · flat
    · exact rp_regOption _ _ _
    · apply RP.pure
      apply allLam_coll
      apply allLam_boxes
      intro a
      apply allLam_tup
      simp only [List.mem_cons, List.not_mem_nil, or_false]
      rintro c (rfl | rfl) <;> ground
  · split
    · unfold Value.collIndices
      refine RP.bind' (by simp) fun c => ?_
      split
      · exact rp_fromVec (allLam_boxes _ _ fun a => by ground)
      · exact RP.err
    · unfold Value.collPatch
      refine RP.bind (rp_asColl ho) fun c hc => RP.bind' (by simp) fun a0 => RP.bind (rp_argOf ha) fun a1 h1 => RP.bind' (by simp) fun a2 =>
        RP.bind' (by simp) fun _ => RP.bind' (by simp) fun _ => RP.bind (rp_asColl h1) fun p hp => RP.bind' (by simp) fun _ => ?_
      apply rp_fromVec
      intro x hx
      rcases List.mem_append.1 hx with hx | hx
      · rcases List.mem_append.1 hx with hx | hx
        · exact hc x (List.mem_of_mem_take hx)
        · exact hp x hx
      · exact hc x (List.mem_of_mem_drop hx)
    · unfold Value.collUpdated
      refine RP.bind (rp_asColl ho) fun c hc => RP.bind' (by simp) fun a0 => RP.bind (rp_argOf ha) fun v h1 => RP.bind' (by simp) fun i => ?_
      split
      · apply rp_fromVec
        intro x hx
        rcases List.mem_or_eq_of_mem_set hx with hx | rfl
        · exact hc x hx
        · exact h1
      · exact RP.err
    · unfold Value.collUpdateMany
      refine RP.bind (rp_asColl ho) fun c hc => RP.bind' (by simp) fun a0 => RP.bind (rp_argOf ha) fun a1 h1 =>
        RP.bind (rp_asColl h1) fun u hu => RP.bind' (by simp) fun idx => ?_
      split
      · exact RP.err
      · split
        · refine RP.bind (rp_updateLoop _ _ (fun p hp => hu p.2 (List.of_mem_zip (a := p.1) (b := p.2) hp).2) hc) fun l hl => ?_
          exact rp_fromVec hl
        · exact RP.err
    · unfold Value.collIndexOf
      flat
    · unfold Value.collZip
      refine RP.bind (rp_asColl ho) fun c hc => RP.bind (rp_argOf ha) fun a h1 => RP.bind (rp_asColl h1) fun d hd => ?_
      apply rp_fromVec
      intro x hx
      obtain ⟨p, hp, rfl⟩ := List.mem_map.1 hx
      have := List.of_mem_zip (a := p.1) (b := p.2) hp
      apply allLam_tup
      simp only [List.mem_cons, List.not_mem_nil, or_false]
      rintro c (rfl | rfl)
      · exact hc _ this.1
      · exact hd _ this.2
    · exact RP.err
  · flat
  · exact rp_headerMethod _ _ _
  · exact rp_preHeaderMethod _ _
  · flat
  · exact RP.err

end Ops

/-- Constants of the context that can hold scripts: context variables and registers of the box being spent. -/
def CtxConst (W : World G B T) (C : EvalCtx G B) (c : Constant G B) : Prop :=
  (∃ id, C.extension.get id = some c) ∨ ∃ r, getRegister W.box C.selfBox r = .ok (some c)

/-- Where the code of `DeserializeContext` comes from. -/
theorem contextExpr_from [DecidableEq G] {W : World G B T} {C : EvalCtx G B} {t : SType} {id : Byte} {e : Expr G B}
    (h : contextExpr W C t id = .ok e) : ∃ c, CtxConst W C c ∧ deserialize W t c = .ok e := by
  unfold contextExpr at h
  split at h
  · next c hc => exact ⟨c, .inl ⟨_, hc⟩, h⟩
  · cases h

/-- Where the code of `DeserializeRegister` comes from. -/
theorem registerExpr_from [DecidableEq G] {W : World G B T} {C : EvalCtx G B} {reg : Byte} {t : SType} {d : List (Expr G B)}
    {e : Expr G B} (h : registerExpr W C reg t d = .ok e) : (∃ c, CtxConst W C c ∧ deserialize W t c = .ok e) ∨ e ∈ d := by
  unfold registerExpr at h
  obtain ⟨id, _, h⟩ := Res.bind_eq_ok.1 h
  split at h
  · next c hc => exact .inl ⟨c, .inr ⟨_, hc⟩, h⟩
  · cases h
  · unfold defaultExpr at h
    split at h
    · split at h
      · cases h; exact .inr (List.mem_cons_self ..)
      · cases h
    · cases h

variable [DecidableEq G] [DecidableEq B] [DecidableEq (Value G B)]

/-- A relation `P` between evaluation routines, with a condition on the result, closed under the constructions of the
interpreter.  `X` is a condition on expressions, `L` one on functions. -/
structure EvLogic (W : World G B T) (C : EvalCtx G B) where
  X : Expr G B → Prop
  L : List (BitVec 32 × SType) → Expr G B → Prop
  P : {α : Type} → (α → Prop) → EvalM G B α → EvalM G B α → Prop
  lift : ∀ {α : Type} {r : Res α} {Q : α → Prop}, RP r Q → P Q (EvalM.lift r) (EvalM.lift r)
  bind : ∀ {α β : Type} {Q : α → Prop} {Q' : β → Prop} {m m' : EvalM G B α} {f f' : α → EvalM G B β},
    P Q m m' → (∀ a, Q a → P Q' (f a) (f' a)) → P Q' (m >>= f) (m' >>= f')
  addCost : P (fun _ => True) (Verif.addCost C.limit) (Verif.addCost C.limit)
  useVar : ∀ id t, X (.valUse id t) → P (AllLam L) (Verif.useVar id) (Verif.useVar id)
  withArg : ∀ {α : Type} {Q : α → Prop} {m m' : EvalM G B α} {id : BitVec 32} {arg : Value G B}, AllLam L arg → P Q m m' →
    P Q (Verif.withArg id arg m) (Verif.withArg id arg m')
  child : ∀ {e c : Expr G B}, X e → c ∈ children e → X c
  func : ∀ {args body}, X (.func args body) → L args body
  lam : ∀ {args body}, L args body → X body
  block : ∀ {ev ev' : Ev G B} {items r}, (∀ e, X e → P (AllLam L) (ev e) (ev' e)) → X (.block items r) →
    P (AllLam L) (evalBlock ev items r) (evalBlock ev' items r)
  apply : ∀ {ev ev' : Ev G B} {params body args}, (∀ e, X e → P (AllLam L) (ev e) (ev' e)) → L params body →
    (∀ v ∈ args, AllLam L v) → P (AllLam L) (applyLam ev (.lam params body) args) (applyLam ev' (.lam params body) args)
  deserC : ∀ {t id e}, X (.deserCtx t id) → contextExpr W C t id = .ok e → X e
  deserR : ∀ {reg t d e}, X (.deserReg reg t d) → registerExpr W C reg t d = .ok e → X e

namespace EvLogic
variable {W : World G B T} {C : EvalCtx G B} (K : EvLogic W C)

/-- The condition on values. -/
abbrev V : Value G B → Prop := AllLam K.L

/-- The two routines are related on all expressions. -/
def Rel (ev ev' : Ev G B) : Prop := ∀ e, K.X e → K.P K.V (ev e) (ev' e)

variable {K} {ev ev' : Ev G B}

theorem pure {α : Type} {Q : α → Prop} {a : α} (h : Q a) : K.P Q (Pure.pure a) (Pure.pure a) := K.lift (RP.ok h)

theorem fail {α : Type} {Q : α → Prop} {e : EvalErr} : K.P Q (EvalM.fail e : EvalM G B α) (EvalM.fail e) := K.lift RP.err

theorem evalAs {α : Type} (h : K.Rel ev ev') {f : Value G B → Res α} {e : Expr G B} (he : K.X e)
    (hf : ∀ v, NO (f v) := by simp) : K.P (fun _ => True) (Verif.evalAs ev f e) (Verif.evalAs ev' f e) :=
  K.bind (h e he) fun v _ => K.lift (RP.any (hf v))

theorem evalAll (h : K.Rel ev ev') : ∀ l : List (Expr G B), (∀ e ∈ l, K.X e) →
    K.P (fun vs => ∀ v ∈ vs, K.V v) (Verif.evalAll ev l) (Verif.evalAll ev' l)
  | [], _ => pure (by simp)
  | e :: l, he => K.bind (h e (he e (List.mem_cons_self ..))) fun v hv =>
      K.bind (evalAll h l fun x hx => he x (List.mem_cons_of_mem _ hx)) fun vs hvs => pure (by
        intro x hx
        rcases List.mem_cons.1 hx with rfl | hx
        · exact hv
        · exact hvs x hx)

theorem callLam (h : K.Rel ev ev') {f arg : Value G B} (hf : K.V f) (ha : K.V arg) :
    K.P K.V (Verif.callLam ev f arg) (Verif.callLam ev' f arg) := by
  unfold Verif.callLam
  split
  · exact K.withArg ha (h _ (K.lam hf.lam))
  · exact fail
  · exact fail

theorem callEach (h : K.Rel ev ev') {f : Value G B} (hf : K.V f) : ∀ l : List (Value G B), (∀ v ∈ l, K.V v) →
    K.P (fun vs => ∀ v ∈ vs, K.V v) (Verif.callEach ev f l) (Verif.callEach ev' f l)
  | [], _ => pure (by simp)
  | e :: l, he => K.bind (callLam h hf (he e (List.mem_cons_self ..))) fun v hv =>
      K.bind (callEach h hf l fun x hx => he x (List.mem_cons_of_mem _ hx)) fun vs hvs => pure (by
        intro x hx
        rcases List.mem_cons.1 hx with rfl | hx
        · exact hv
        · exact hvs x hx)

theorem callConds (h : K.Rel ev ev') {f : Value G B} (hf : K.V f) : ∀ l : List (Value G B), (∀ v ∈ l, K.V v) →
    K.P (fun _ => True) (Verif.callConds ev f l) (Verif.callConds ev' f l)
  | [], _ => pure trivial
  | e :: l, he => K.bind (callLam h hf (he e (List.mem_cons_self ..))) fun v hv =>
      K.bind (K.lift (RP.any (by simp))) fun b _ =>
      K.bind (callConds h hf l fun x hx => he x (List.mem_cons_of_mem _ hx)) fun vs hvs => pure trivial

theorem callAny (h : K.Rel ev ev') {f : Value G B} (hf : K.V f) : ∀ l : List (Value G B), (∀ v ∈ l, K.V v) →
    K.P (fun _ => True) (Verif.callAny ev f l) (Verif.callAny ev' f l)
  | [], _ => pure trivial
  | e :: l, he => K.bind (callLam h hf (he e (List.mem_cons_self ..))) fun v hv =>
      K.bind (K.lift (RP.any (by simp))) fun b _ => by
        split
        · exact pure trivial
        · exact callAny h hf l fun x hx => he x (List.mem_cons_of_mem _ hx)

theorem callForAll (h : K.Rel ev ev') {f : Value G B} (hf : K.V f) : ∀ l : List (Value G B), (∀ v ∈ l, K.V v) →
    K.P (fun _ => True) (Verif.callForAll ev f l) (Verif.callForAll ev' f l)
  | [], _ => pure trivial
  | e :: l, he => K.bind (callLam h hf (he e (List.mem_cons_self ..))) fun v hv =>
      K.bind (K.lift (RP.any (by simp))) fun b _ => by
        split
        · exact callForAll h hf l fun x hx => he x (List.mem_cons_of_mem _ hx)
        · exact pure trivial

theorem callFold (h : K.Rel ev ev') {f : Value G B} (hf : K.V f) : ∀ (l : List (Value G B)) (acc : Value G B), K.V acc →
    (∀ v ∈ l, K.V v) → K.P K.V (Verif.callFold ev f acc l) (Verif.callFold ev' f acc l)
  | [], acc, ha, _ => pure ha
  | e :: l, acc, ha, he => by
    refine K.bind (callLam h hf (allLam_tup ?_)) fun v hv =>
      callFold h hf l v hv fun x hx => he x (List.mem_cons_of_mem _ hx)
    intro c hc
    simp only [List.mem_cons, List.not_mem_nil, or_false] at hc
    rcases hc with rfl | rfl
    · exact ha
    · exact he _ (List.mem_cons_self ..)

theorem itemsOf {t : SType} {v : Value G B} (hv : K.V v) : RP (Verif.itemsOf t v) fun l => ∀ c ∈ l, K.V c := by
  unfold Verif.itemsOf
  refine RP.bind (rp_asColl hv) fun c hc => ?_
  split
  · exact RP.pure hc
  · exact RP.err

theorem flatMapMethod (h : K.Rel ev ev') {obj : Value G B} {args : List (Value G B)} (ho : K.V obj) (ha : ∀ v ∈ args, K.V v) :
    K.P K.V (Verif.flatMapMethod ev obj args) (Verif.flatMapMethod ev' obj args) := by
  unfold Verif.flatMapMethod
  refine K.bind (K.lift (rp_argOf ha)) fun f hf => ?_
  split
  · split
    · exact fail
    · split
      · split
        · exact fail
        · exact K.bind (K.lift (itemsOf ho)) fun items hi => K.bind (callEach h hf _ hi) fun vs hvs =>
            K.lift (rp_fromVecVec hvs)
      · exact fail
  · exact fail

theorem optionMapMethod (h : K.Rel ev ev') {obj : Value G B} {args : List (Value G B)} (ho : K.V obj) (ha : ∀ v ∈ args, K.V v) :
    K.P K.V (Verif.optionMapMethod ev obj args) (Verif.optionMapMethod ev' obj args) := by
  unfold Verif.optionMapMethod
  refine K.bind (K.lift (rp_argOf ha)) fun f hf => ?_
  split
  · split
    · exact K.bind (callLam h hf (ho.part (by simp [parts]))) fun v hv => pure (allLam_some hv)
    · exact pure ho
    · exact fail
  · exact fail

theorem optionFilterMethod (h : K.Rel ev ev') {obj : Value G B} {args : List (Value G B)} (ho : K.V obj) (ha : ∀ v ∈ args, K.V v) :
    K.P K.V (Verif.optionFilterMethod ev obj args) (Verif.optionFilterMethod ev' obj args) := by
  unfold Verif.optionFilterMethod
  refine K.bind (K.lift (rp_argOf ha)) fun f hf => ?_
  split
  · split
    · refine K.bind (callLam h hf (ho.part (by simp [parts]))) fun v hv => ?_
      split
      · apply pure
        split
        · exact ho
        · ground
      · exact fail
    · exact pure ho
    · exact fail
  · exact fail

theorem callMethod (h : K.Rel ev ev') {t m : Byte} {obj : Value G B} {args : List (Value G B)} (ho : K.V obj)
    (ha : ∀ v ∈ args, K.V v) : K.P K.V (Verif.callMethod W C ev t m obj args) (Verif.callMethod W C ev' t m obj args) := by
  unfold Verif.callMethod
  split
  · exact flatMapMethod h ho ha
  · split
    · exact optionMapMethod h ho ha
    · split
      · exact optionFilterMethod h ho ha
      · exact K.lift (rp_pureMethod W C _ _ _ _ ho ha)

theorem evalBin (h : K.Rel ev ev') {k : BinK} {l r : Expr G B} (hl : K.X l) (hr : K.X r) :
    K.P K.V (Verif.evalBin C ev k l r) (Verif.evalBin C ev' k l r) := by
  unfold Verif.evalBin
  refine K.bind K.addCost fun _ _ => K.bind (h l hl) fun lv hlv => ?_
  have hb : ∀ v : Value G B, K.P (fun _ => True) (EvalM.lift v.asBool) (EvalM.lift v.asBool) :=
    fun v => K.lift (RP.any (by simp))
  have hpb : ∀ b : Bool, K.P K.V (Pure.pure (Value.bool b)) (Pure.pure (Value.bool b)) := fun b => pure (by ground)
  split
  · refine K.bind (hb lv) fun b _ => ?_
    split
    · exact K.bind (evalAs h hr) fun _ _ => hpb _
    · exact hpb _
  · refine K.bind (hb lv) fun b _ => ?_
    split
    · exact hpb _
    · exact K.bind (evalAs h hr) fun _ _ => hpb _
  · exact K.bind (hb lv) fun b _ => K.bind (evalAs h hr) fun _ _ => hpb _
  · exact K.bind (h r hr) fun _ _ => hpb _
  · exact K.bind (h r hr) fun _ _ => hpb _
  · exact K.bind (h r hr) fun rv _ => K.lift (rp_binNum _ _ _)
  · exact K.bind (h r hr) fun rv _ => K.lift (rp_binNum _ _ _)
  · exact K.bind (h r hr) fun rv _ => K.lift (rp_binNum _ _ _)
  · exact K.bind (h r hr) fun rv _ => K.lift (rp_binNum _ _ _)
  · split
    · next f hf => exact K.bind (h r hr) fun rv _ => K.lift (rp_leftNum hf rv)
    · exact fail

theorem evalOp (h : K.Rel ev ev') {o : SOp} {args : List (Expr G B)} (he : ∀ e ∈ args, K.X e) :
    K.P K.V (Verif.evalOp W C ev o args) (Verif.evalOp W C ev' o args) := by
  unfold Verif.evalOp
  split
  · refine K.bind (evalAs h (he _ (by simp))) fun b _ => ?_
    split
    · exact h _ (he _ (by simp))
    · exact h _ (he _ (by simp))
  · refine K.bind (h _ (he _ (by simp))) fun iv hiv => K.bind (h _ (he _ (by simp))) fun f hf => ?_
    split
    · exact K.bind (K.lift (itemsOf hiv)) fun items hi => K.bind (callEach h hf _ hi) fun vs hvs => K.lift (rp_fromVec hvs)
    · exact fail
  · refine K.bind (h _ (he _ (by simp))) fun iv hiv => K.bind (h _ (he _ (by simp))) fun f hf =>
      K.bind (K.lift (itemsOf hiv)) fun items hi => K.bind (callConds h hf _ hi) fun bs _ => K.lift (rp_fromVec ?_)
    intro c hc
    obtain ⟨p, hp, rfl⟩ := List.mem_map.1 hc
    exact hi _ (List.of_mem_zip (a := p.1) (b := p.2) (List.mem_filter.1 hp).1).1
  · refine K.bind (h _ (he _ (by simp))) fun iv hiv => K.bind (h _ (he _ (by simp))) fun f hf =>
      K.bind (K.lift (itemsOf hiv)) fun items hi => K.bind (callAny h hf _ hi) fun b _ => pure (by ground)
  · refine K.bind (h _ (he _ (by simp))) fun iv hiv => K.bind (h _ (he _ (by simp))) fun f hf =>
      K.bind (K.lift (itemsOf hiv)) fun items hi => K.bind (callForAll h hf _ hi) fun b _ => pure (by ground)
  · exact K.bind (h _ (he _ (by simp))) fun iv hiv => K.bind (h _ (he _ (by simp))) fun z hz =>
      K.bind (h _ (he _ (by simp))) fun f hf => K.bind (K.lift (rp_asColl hiv)) fun c hc => callFold h hf _ _ hz hc
  · refine K.bind (evalAs h (he _ (by simp))) fun t _ => K.bind (evalAs h (he _ (by simp))) fun k _ =>
      K.bind (evalAs h (he _ (by simp))) fun p _ => K.bind (K.lift (RP.any (by simp))) fun r _ => pure ?_
    apply allLam_ofOption
    intro v hv
    simp only [Option.map_eq_some_iff] at hv
    obtain ⟨a, _, rfl⟩ := hv
    ground
  · exact K.bind (evalAs h (he _ (by simp))) fun t _ => K.bind (evalAs h (he _ (by simp))) fun k _ =>
      K.bind (evalAs h (he _ (by simp))) fun p _ => K.bind (evalAs h (he _ (by simp))) fun p _ => pure (by ground)
  · exact K.bind (evalAll h _ he) fun vs hvs => K.lift (rp_strictOp W C _ _ hvs)

theorem applyLam (h : K.Rel ev ev') {f : Value G B} {args : List (Value G B)} (hf : K.V f) (ha : ∀ v ∈ args, K.V v) :
    K.P K.V (Verif.applyLam ev f args) (Verif.applyLam ev' f args) := by
  cases f with
  | lam params body => exact K.apply h hf.lam ha
  | _ => exact fail

/-- The interpreter respects the relation. -/
theorem step (h : K.Rel ev ev') : K.Rel (Verif.step W C ev) (Verif.step W C ev') := by
  intro e he
  have hc : ∀ c ∈ children e, K.X c := fun c hc => K.child he hc
  have any : ∀ {α : Type} (r : Res α), NO r → K.P (fun _ => True) (EvalM.lift r) (EvalM.lift r) := fun r hr => K.lift (RP.any hr)
  cases e <;> unfold Verif.step <;> dsimp only [children] at hc
  · exact pure (allLam_ofLiteral _)
  · exact fail
  · exact K.useVar _ _ he
  · exact pure (allLam_coll (allLam_boxes _ _ fun a => by ground))
  · exact evalOp h hc
  · exact evalBin h (hc _ (by simp)) (hc _ (by simp))
  · exact K.bind (h _ (hc _ (by simp))) fun v hv => K.lift (rp_cast _ _ _)
  · exact K.bind (evalAs h (hc _ (by simp))) fun b _ => K.lift (rp_regOption _ _ _)
  · refine K.bind (h _ (hc _ (by simp))) fun v hv => ?_
    split
    · exact K.lift (RP.ofOption fun a ha => hv.part (List.mem_of_getElem? ha))
    · exact fail
  · dsimp only
    split
    · exact pure (by ground)
    · split
      · exact pure (allLam_some (allLam_ofLiteral _))
      · exact fail
  · exact K.bind (K.lift ⟨NO.contextExpr _ _ _ _, fun e h' => K.deserC he h'⟩) fun e he => h e he
  · exact K.bind (K.lift ⟨NO.registerExpr _ _ _ _ _, fun e h' => K.deserR he h'⟩) fun e he => h e he
  · refine K.bind (h _ (hc _ (by simp))) fun iv hiv => K.bind (h _ (hc _ (by simp))) fun ix hix =>
      K.bind (K.lift (rp_asColl hiv)) fun c hcc => ?_
    split
    · exact K.bind (any _ (by simp)) fun i _ => K.lift (RP.ofOption fun a ha => hcc _ (List.mem_of_getElem? ha))
    · refine K.bind (h _ (hc _ (by simp))) fun dv hdv => K.bind (any _ (by simp)) fun i _ => pure ?_
      cases hx : c.2[usizeOf i]? with
      | none => exact hdv
      | some a => exact hcc _ (List.mem_of_getElem? hx)
  · refine K.bind (evalAs h (hc _ (by simp))) fun _ _ => K.bind (evalAs h (hc _ (by simp))) fun _ _ =>
      K.bind (evalAs h (hc _ (by simp))) fun _ _ => ?_
    have hm : ∀ f d k v, RP (Value.mkAvl f d k v : Res (Value G B)) K.V := by
      intro f d k v
      unfold Value.mkAvl
      split
      · exact RP.ok (by ground)
      · exact RP.err
    split
    · exact K.lift (hm _ _ _ _)
    · exact K.bind (evalAs h (hc _ (by simp))) fun _ _ => K.lift (hm _ _ _ _)
  · exact K.bind (evalAll h _ hc) fun vs hvs => K.lift (rp_fromVec hvs)
  · exact K.bind (evalAll h _ hc) fun vs hvs => pure (allLam_tup hvs)
  · exact K.bind (evalAll h _ hc) fun vs hvs => K.bind (any _ (by simp)) fun _ _ => K.bind (any _ (by simp)) fun _ _ => pure (by ground)
  · refine pure (.mk ?_ (by simp [parts]))
    intro a b hab
    cases hab
    exact K.func he
  · exact K.bind (h _ (hc _ (by simp))) fun f hf =>
      K.bind (evalAll h _ fun e he => hc e (List.mem_cons_of_mem _ he)) fun vs hvs => applyLam h hf hvs
  · exact K.block h he
  · exact fail
  · exact K.bind (h _ (hc _ (by simp))) fun o ho =>
      K.bind (evalAll h _ fun e he => hc e (List.mem_cons_of_mem _ he)) fun vs hvs => callMethod h ho hvs
  · exact K.bind (h _ (hc _ (by simp))) fun o ho => callMethod h ho (by simp)

end EvLogic
end Verif
