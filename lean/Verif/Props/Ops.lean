import Verif.Proofs.Subst
import Verif.Props.SigmaBoolean
import Verif.Props.Coll

set_option linter.unusedSimpArgs false
set_option linter.unusedVariables false

/-!
# C70, C72: logical, sigma and other operators of scripts

C70: what `allOf`, `anyOf`, `xorOf`, `atLeast` and the combination of propositions mean.  C72: registers, variables, group elements,
byte strings and authenticated trees.
-/

namespace Verif
open Spec
variable {G B T : Type} [DecidableEq G] [DecidableEq B] [DecidableEq (Value G B)] (W : World G B T) (C : EvalCtx G B)

/-! ## C70 -/

/-- C70: the nodes that take all operands as values evaluate them from left to right and apply the operation of `Value.strictOp`, about
which the other theorems speak. -/
theorem C70_node (n : Nat) (o : SOp) (args : List (Expr G B)) (vs : List (Value G B)) (s s' : EvalSt G B)
    (hC : C.limit = none) (ho : o ∉ [SOp.ifOp, .map, .filter, .anyOf, .forAll, .fold, .treeLookup, .createProveDhTuple])
    (h : evalAll (eval W C n) args { s with cost := s.cost + 1 } = .ok (vs, s')) :
    eval W C (n + 1) (.op o args) s = EvalM.lift (Value.strictOp W C o vs) s' := by
  rw [eval_succ_run W C n _ s hC]
  show evalOp W C (eval W C n) o args _ = _
  rw [evalOp_strict W C _ o (by cases o <;> first | rfl | exact absurd (by simp) ho), EvalM.bind_ok h]

omit [DecidableEq G] [DecidableEq B] [DecidableEq (Value G B)] in
theorem mapAll_asBool (l : List Bool) : Res.mapAll Value.asBool (l.map (Value.bool : Bool → Value G B)) = .ok l := by
  induction l with
  | nil => rfl
  | cons a l ih => rw [List.map_cons, Res.mapAll, ih]; rfl

theorem foldl_xor (l : List Bool) (b : Bool) : l.foldl xor b = (b != decide (l.count true % 2 = 1)) := by
  induction l generalizing b with
  | nil => cases b <;> rfl
  | cons a l ih =>
    rw [List.foldl_cons, ih, List.count_cons]
    have h2 : l.count true % 2 = 0 ∨ l.count true % 2 = 1 := by omega
    cases a
    · simp
    · have h3 : ((l.count true + 1) % 2 = 1) ↔ ¬ (l.count true % 2 = 1) := by omega
      cases b <;> rcases h2 with h | h <;> simp [h3, h]

/-- C70: `allOf` is true exactly if all items are, `anyOf` if some item is, `xorOf` if an odd number of items is; any length, also
zero. -/
theorem C70_boolean (l : List Bool) :
    (∃ b, Value.strictOp W C .and [.coll .bool (l.map .bool)] = .ok (.bool b) ∧ (b = true ↔ ∀ x ∈ l, x = true)) ∧
    (∃ b, Value.strictOp W C .or [.coll .bool (l.map .bool)] = .ok (.bool b) ∧ (b = true ↔ ∃ x ∈ l, x = true)) ∧
    (∃ b, Value.strictOp W C .xorOf [.coll .bool (l.map .bool)] = .ok (.bool b) ∧ (b = true ↔ l.count true % 2 = 1)) := by
  have h := mapAll_asBool (G := G) (B := B) l
  refine ⟨⟨l.all id, ?_, by simp⟩, ⟨l.any id, ?_, by simp⟩, ⟨l.foldl xor false, ?_, by simp [foldl_xor]⟩⟩
  · have e : Value.strictOp W C .and [.coll .bool (l.map .bool)] = (Res.mapAll Value.asBool (l.map (Value.bool : Bool → Value G B)) >>= fun l => pure (Value.bool (l.all id))) := rfl
    rw [e, h]; rfl
  · have e : Value.strictOp W C .or [.coll .bool (l.map .bool)] = (Res.mapAll Value.asBool (l.map (Value.bool : Bool → Value G B)) >>= fun l => pure (Value.bool (l.any id))) := rfl
    rw [e, h]; rfl
  · have e : Value.strictOp W C .xorOf [.coll .bool (l.map .bool)] = (Res.mapAll Value.asBool (l.map (Value.bool : Bool → Value G B)) >>= fun l => pure (Value.bool (l.foldl xor false))) := rfl
    rw [e, h]; rfl

/-- C70: `!`, and a Boolean as a proposition. -/
theorem C70_not (b : Bool) : Value.strictOp W C .logicalNot [.bool b] = .ok (.bool (!b)) ∧
    ∃ p, Value.strictOp W C .boolToSigmaProp [.bool b] = .ok (.sigmaProp p) ∧ ∀ σ, holds σ p = b :=
  ⟨rfl, _, rfl, fun σ => rfl⟩

omit [DecidableEq G] [DecidableEq B] [DecidableEq (Value G B)] in
theorem mapAll_asSigma (l : List (SigmaBoolean G)) : Res.mapAll Value.asSigma (l.map (Value.sigmaProp : _ → Value G B)) = .ok l := by
  induction l with
  | nil => rfl
  | cons a l ih => rw [List.map_cons, Res.mapAll, ih]; rfl

theorem step_sigma (ev : Expr G B → EvalM G B (Value G B)) (isAnd : Bool) (items : List (Expr G B)) :
    step W C ev (.sigma isAnd items) = (do
      let vs ← evalAll ev items
      let ps ← EvalM.lift (Res.mapAll Value.asSigma vs)
      let p ← EvalM.lift (Res.ofOutcome .misc (if isAnd then SigmaBoolean.candNormalized ps else SigmaBoolean.corNormalized ps))
      pure (.sigmaProp p)) := rfl

/-- C70: `p1 && … && pn` of propositions is a proposition provable exactly if all are; it is evaluated from left to right, without
short circuit, and never panics. -/
theorem C70_sigma_and (n : Nat) (items : List (Expr G B)) (ps : List (SigmaBoolean G)) (s s' : EvalSt G B) (hC : C.limit = none)
    (h2 : 2 ≤ ps.length) (h255 : ps.length ≤ 255)
    (h : evalAll (eval W C n) items { s with cost := s.cost + 1 } = .ok (ps.map .sigmaProp, s')) :
    ∃ p, eval W C (n + 1) (.sigma true items) s = .ok (.sigmaProp p, s') ∧ ∀ σ, holds σ p = true ↔ ∀ q ∈ ps, holds σ q = true := by
  obtain ⟨p, h1, hp, _⟩ := C16_cand ps h2 h255
  refine ⟨p, ?_, hp⟩
  rw [eval_succ_run W C n _ s hC]
  rw [step_sigma, EvalM.bind_ok h, EvalM.bind_ok (a := ps) (s' := s') (by rw [mapAll_asSigma]; rfl)]
  simp only [if_true, h1]
  rfl

/-- C70: `p1 || … || pn` of propositions is a proposition provable exactly if one is. -/
theorem C70_sigma_or (n : Nat) (items : List (Expr G B)) (ps : List (SigmaBoolean G)) (s s' : EvalSt G B) (hC : C.limit = none)
    (h2 : 2 ≤ ps.length) (h255 : ps.length ≤ 255)
    (h : evalAll (eval W C n) items { s with cost := s.cost + 1 } = .ok (ps.map .sigmaProp, s')) :
    ∃ p, eval W C (n + 1) (.sigma false items) s = .ok (.sigmaProp p, s') ∧ ∀ σ, holds σ p = true ↔ ∃ q ∈ ps, holds σ q = true := by
  obtain ⟨p, h1, hp, _⟩ := C16_cor ps h2 h255
  refine ⟨p, ?_, hp⟩
  rw [eval_succ_run W C n _ s hC]
  rw [step_sigma, EvalM.bind_ok h, EvalM.bind_ok (a := ps) (s' := s') (by rw [mapAll_asSigma]; rfl)]
  simp only [Bool.false_eq_true, if_false, h1]
  rfl

theorem strictOp_atleast (k : BitVec 32) (ps : List (SigmaBoolean G)) :
    Value.strictOp W C .atleast [.int k, .coll .sigmaProp (ps.map .sigmaProp)] = Value.atleast k ps := by
  show (Res.mapAll Value.asSigma (ps.map .sigmaProp) >>= fun l => Value.atleast k l) = _
  rw [mapAll_asSigma]
  rfl

/-- C70 (partial): `atLeast(k, props)` is a proposition provable exactly if at least `k` of the propositions are.  What is missing:
fewer than two propositions, and a bound above their number, for which see the violation. -/
theorem C70_atLeast_partial (k : BitVec 32) (ps : List (SigmaBoolean G)) (h0 : 0 ≤ k.toInt) (hk : k.toInt ≤ ps.length)
    (h2 : 2 ≤ ps.length) (h255 : ps.length ≤ 255) :
    ∃ p, Value.strictOp W C .atleast [.int k, .coll .sigmaProp (ps.map .sigmaProp)] = .ok (.sigmaProp p) ∧
      ∀ σ, holds σ p = true ↔ k.toInt ≤ ps.countP (fun q => holds σ q) := by
  obtain ⟨p, h1, hp, _⟩ := C16_threshold (k.setWidth 8) ps h2 h255
  have e1 : k.toInt = k.toNat := by
    have := k.isLt
    have := BitVec.toInt_eq_toNat_cond k
    split at this <;> omega
  have e2 : (k.setWidth 8).toNat = k.toNat := by
    rw [BitVec.toNat_setWidth]
    omega
  have e3 : (BitVec.ofNat 32 ps.length).toInt = ps.length := by
    rw [BitVec.toInt_ofNat', Int.bmod_eq_of_le (by omega) (by omega)]
  refine ⟨p, ?_, fun σ => by rw [hp σ, e2]; omega⟩
  rw [strictOp_atleast]
  unfold Value.atleast
  rw [if_neg (by omega), if_neg (by rw [e3]; omega), if_pos ⟨h2, h255⟩, h1]
  rfl

/-- C70: no other use of `atLeast` gives a proposition: a negative bound, a bound above the number of propositions, fewer than two or
more than 255 propositions are errors. -/
theorem C70_atLeast_refused (k : BitVec 32) (ps : List (SigmaBoolean G)) (hl : ps.length < 2 ^ 31)
    (h : k.toInt < 0 ∨ ps.length < k.toInt ∨ ps.length < 2 ∨ 255 < ps.length) :
    ∃ e, Value.strictOp W C .atleast [.int k, .coll .sigmaProp (ps.map .sigmaProp)] = .err e := by
  have e3 : (BitVec.ofNat 32 ps.length).toInt = ps.length := by
    rw [BitVec.toInt_ofNat', Int.bmod_eq_of_le (by omega) (by omega)]
  rw [strictOp_atleast]
  unfold Value.atleast
  split
  · exact ⟨_, rfl⟩
  · split
    · exact ⟨_, rfl⟩
    · rename_i h1 h2
      rw [e3] at h2
      rw [if_neg (by omega)]
      exact ⟨_, rfl⟩

/-- C70 fails for `atLeast` of one proposition, and for a bound that cannot be met: `atLeast(1, Coll(p))` should be `p` and
`atLeast(3, Coll(p, q))` should be false; both are errors, so that `atLeast(1, Coll(p)) || q` cannot be spent by `q` either. -/
theorem C70_violation_atLeast (p q : SigmaBoolean G) :
    Value.strictOp W C .atleast [.int 1, .coll .sigmaProp [.sigmaProp p]] = .err .boundedVec ∧
    Value.strictOp W C .atleast [.int 3, .coll .sigmaProp [.sigmaProp p, .sigmaProp q]] = .err .misc := ⟨rfl, rfl⟩

/-- C70: public keys as propositions. -/
theorem C70_keys (g : G) : ∃ p, Value.strictOp W C .createProveDlog [.groupElement g] = .ok (.sigmaProp p) ∧ ∀ σ, holds σ p = σ.dlog g :=
  ⟨_, rfl, fun σ => rfl⟩

/-- Two of three keys. -/
example (a b c : G) : ∃ p, Value.strictOp W C .atleast [.int 2, .coll .sigmaProp [.sigmaProp (.dlog a), .sigmaProp (.dlog b),
    .sigmaProp (.dlog c)]] = .ok (.sigmaProp p) ∧ ∀ σ, holds σ p = true ↔
      2 ≤ ([SigmaBoolean.dlog a, .dlog b, .dlog c].countP fun q => holds σ q : Int) :=
  C70_atLeast_partial W C 2 [.dlog a, .dlog b, .dlog c] (by decide) (show (2 : Int) ≤ 3 by decide) (show 2 ≤ 3 by decide) (show 3 ≤ 255 by decide)

/-- `proveDlog(generator) && sigmaProp(true)`. -/
example (hC : C.limit = none) : ∃ p s', eval W C 4 (.sigma true [.op .createProveDlog [.op .groupGenerator []], .op .boolToSigmaProp [.const ⟨.bool, .bool true⟩]])
    { env := [], cost := 0 } = .ok (.sigmaProp p, s') ∧ ∀ σ, holds σ p = true ↔ σ.dlog W.gen = true := by
  obtain ⟨p, h1, h2⟩ := C70_sigma_and W C 3 [.op .createProveDlog [.op .groupGenerator []], .op .boolToSigmaProp [.const ⟨.bool, .bool true⟩]]
    [.dlog W.gen, .trivial true] { env := [], cost := 0 } { env := [], cost := 5 } hC (show 2 ≤ 2 by decide) (show 2 ≤ 255 by decide) (by
      obtain ⟨ht, a, b, c, d, e, f, g, lim⟩ := C
      dsimp only at hC
      subst hC
      rfl)
  refine ⟨p, _, h1, fun σ => ?_⟩
  rw [h2 σ]
  simp [holds]

end Verif
