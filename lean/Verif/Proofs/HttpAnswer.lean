import Verif.Spec.HttpAnswer
import Verif.Proofs.Http

/-!
# Lemmas on the answers to queries
-/

namespace Verif.Http
open Verif.Spec

theorem addHeaders_none (l : List (Text × Text)) : addHeaders l none = none := by
  induction l with
  | nil => rfl
  | cons p l ih => exact ih

theorem addHeaders_some (l : List (Text × Text)) (h : HeaderMap) :
    (∃ h', addHeaders l (some h) = some h') ↔ ∀ p ∈ l, HeaderToken p.1 ∧ NoControls p.2 := by
  classical
  induction l generalizing h with
  | nil => simp [addHeaders]
  | cons p l ih =>
    obtain ⟨n, v⟩ := p
    rw [addHeaders]
    simp only [List.mem_cons, forall_eq_or_imp]
    rw [headerName_eq, headerValueString_eq]
    by_cases hn : HeaderToken n
    · rw [if_pos hn]
      by_cases hv : NoControls v
      · rw [if_pos hv]
        simpa [hn, hv] using ih (h.append (n.map Char.toLower) v)
      · rw [if_neg hv]
        simp [addHeaders_none, hn, hv]
    · rw [if_neg hn]
      simp [addHeaders_none, hn]

theorem addHeaders_values (l : List (Text × Text)) (h h' : HeaderMap) (e : addHeaders l (some h) = some h') (n : Text) :
    ofMap h' n = ofMap h n ++ answerValues l n := by
  classical
  induction l generalizing h with
  | nil => cases e; simp [answerValues]
  | cons p l ih =>
    obtain ⟨k, v⟩ := p
    rw [addHeaders, headerName_eq, headerValueString_eq] at e
    by_cases hn : HeaderToken k
    · rw [if_pos hn] at e
      by_cases hv : NoControls v
      · rw [if_pos hv] at e
        have := ih (h.append (k.map Char.toLower) v) (by simpa using e)
        rw [this, ofMap_append]
        unfold answerValues
        by_cases hk : n = k.map Char.toLower
        · subst hk; simp
        · rw [if_neg hk, List.filter_cons]
          have : ((k, v).1.map Char.toLower == n) = false := by simpa using fun h => hk h.symm
          rw [this]
          rfl
      · rw [if_neg hv] at e
        simp [addHeaders_none] at e
    · rw [if_neg hn] at e
      simp [addHeaders_none] at e

theorem values_ofMap (h : HeaderMap) (n : Text) : h.values n = ofMap h n := by
  induction h with
  | nil => rfl
  | cons p h ih =>
    obtain ⟨k, vs⟩ := p
    rw [HeaderMap.values, ofMap_cons, ih]

theorem ofJs_ok (parseUrl : Text → Bool) (js : JsResponse) : (∃ r, ofJs parseUrl js = .ok r) ↔ Wellformed parseUrl js := by
  unfold ofJs Wellformed
  by_cases hu : parseUrl js.url = true
  · rw [if_pos hu]
    by_cases hs : 100 ≤ js.status ∧ js.status < 1000
    · rw [if_pos hs]
      have := addHeaders_some js.headers []
      simp only [hu, hs.1, hs.2, true_and]
      rw [← this]
      cases hh : addHeaders js.headers (some []) with
      | none => simp
      | some h => simp
    · rw [if_neg hs]
      constructor
      · rintro ⟨r, h⟩; cases h
      · rintro ⟨_, h1, h2, _⟩; exact absurd ⟨h1, h2⟩ hs
  · rw [if_neg hu]
    constructor
    · rintro ⟨r, h⟩; cases h
    · intro h; exact absurd h.1 hu

theorem ofJs_fields (parseUrl : Text → Bool) (js : JsResponse) (r : Response) (h : ofJs parseUrl js = .ok r) :
    r.status = js.status ∧ r.url = js.url ∧ ∀ n, ofMap r.headers n = answerValues js.headers n := by
  unfold ofJs at h
  split at h
  · split at h
    · rename_i hh
      cases h
      refine ⟨rfl, rfl, fun n => ?_⟩
      split at hh
      · have := addHeaders_values _ _ _ hh n
        rwa [ofMap_nil, List.nil_append] at this
      · cases hh
    · cases h
  · cases h

theorem ofJs_err (parseUrl : Text → Bool) (js : JsResponse) (e : ReqError) (h : ofJs parseUrl js = .err e) : e = errOf .request := by
  unfold ofJs at h
  split at h
  · split at h
    · cases h
    · cases h; rfl
  · cases h

/-- What a settled promise of `fetch` gives. -/
def settledAs (parseUrl : Text → Bool) : Option JsResponse → AsyncRes ReqError Response
  | none => .err (errOf .request)
  | some js => ofJs parseUrl js

theorem fetchAnswer_head {parseUrl : Text → Bool} {timer : Option Int} {b : Behaviour} {t : Nat} {r : Option JsResponse}
    (h : b.head = some (t, r)) (ht : ∀ a, timer = some a → t < a.toNat ∨ (t = a.toNat ∧ b.tie = true)) :
    fetchAnswer parseUrl timer b = some (t, settledAs parseUrl r) := by
  unfold fetchAnswer
  rw [h]
  cases timer with
  | none => cases r <;> rfl
  | some a => cases r <;> exact if_pos (ht a rfl)

theorem fetchAnswer_late {parseUrl : Text → Bool} {a : Int} {b : Behaviour} (h : LateHead a.toNat b) :
    fetchAnswer parseUrl (some a) b = some (a.toNat, .err (errOf .request)) := by
  unfold fetchAnswer
  rcases hb : b.head with _ | ⟨t, r⟩
  · rfl
  · have := h t r hb
    refine if_neg ?_
    rintro (h1 | ⟨h1, h2⟩)
    · omega
    · rcases this with h3 | ⟨_, h3⟩
      · omega
      · rw [h2] at h3; cases h3

theorem fetchAnswer_never {parseUrl : Text → Bool} {b : Behaviour} (h : b.head = none) : fetchAnswer parseUrl none b = none := by
  unfold fetchAnswer
  rw [h]

/-- The three cases. -/
theorem fetch_cases (timer : Option Int) (b : Behaviour) :
    (∃ t r, b.head = some (t, r) ∧ ∀ a, timer = some a → t < a.toNat ∨ (t = a.toNat ∧ b.tie = true)) ∨
    (∃ a, timer = some a ∧ LateHead a.toNat b) ∨ (timer = none ∧ b.head = none) := by
  rcases hb : b.head with _ | ⟨t, r⟩
  · cases timer with
    | none => exact .inr (.inr ⟨rfl, rfl⟩)
    | some a => exact .inr (.inl ⟨a, rfl, fun t r h => by rw [hb] at h; cases h⟩)
  · cases timer with
    | none => exact .inl ⟨t, r, rfl, fun a h => by cases h⟩
    | some a =>
      by_cases hc : t < a.toNat ∨ (t = a.toNat ∧ b.tie = true)
      · exact .inl ⟨t, r, rfl, fun a' h => by cases h; exact hc⟩
      · refine .inr (.inl ⟨a, rfl, fun t' r' h => ?_⟩)
        rw [hb] at h
        cases h
        by_cases h1 : t = a.toNat
        · right
          refine ⟨h1.symm, ?_⟩
          cases ht : b.tie with
          | false => rfl
          | true => exact absurd (.inr ⟨h1, ht⟩) hc
        · left
          by_cases h2 : t < a.toNat
          · exact absurd (.inl h2) hc
          · omega

theorem fetchAnswer_ok (parseUrl : Text → Bool) (timer : Option Int) (b : Behaviour) (t : Nat) (r : Response) :
    fetchAnswer parseUrl timer b = some (t, .ok r) ↔ ∃ js, HeadAt timer b t js ∧ ofJs parseUrl js = .ok r := by
  constructor
  · intro h
    rcases fetch_cases timer b with ⟨t', r', h1, h2⟩ | ⟨a, h1, h2⟩ | ⟨h1, h2⟩
    · rw [fetchAnswer_head h1 h2] at h
      simp only [Option.some.injEq, Prod.mk.injEq] at h
      obtain ⟨rfl, h⟩ := h
      cases r' with
      | none => cases h
      | some js => exact ⟨js, ⟨h1, h2⟩, h⟩
    · rw [h1, fetchAnswer_late h2] at h
      simp at h
    · rw [h1, fetchAnswer_never h2] at h
      cases h
  · rintro ⟨js, ⟨h1, h2⟩, h3⟩
    rw [fetchAnswer_head h1 h2, ← h3]
    rfl

theorem fetchAnswer_err (parseUrl : Text → Bool) (timer : Option Int) (b : Behaviour) (t : Nat) (e : ReqError)
    (h : fetchAnswer parseUrl timer b = some (t, .err e)) : e = errOf .request := by
  rcases fetch_cases timer b with ⟨t', r', h1, h2⟩ | ⟨a, h1, h2⟩ | ⟨h1, h2⟩
  · rw [fetchAnswer_head h1 h2] at h
    simp only [Option.some.injEq, Prod.mk.injEq] at h
    cases r' with
    | none => exact (AsyncRes.err.inj h.2).symm
    | some js => exact ofJs_err _ _ _ h.2
  · rw [h1, fetchAnswer_late h2] at h
    simp only [Option.some.injEq, Prod.mk.injEq, AsyncRes.err.injEq] at h
    exact h.2.symm
  · rw [h1, fetchAnswer_never h2] at h
    cases h

theorem readJson_ok {α : Type} (parse : Bytes → Option Json) (read : Json → Outcome α) (b : Behaviour) (t T : Nat) (v : α) :
    readJson parse read b t = some (T, .ok v) ↔
      ∃ d bs j, b.body = some (d, some bs) ∧ T = t + d ∧ parse bs = some j ∧ read j = .ok v := by
  unfold readJson readBytes
  rcases hb : b.body with _ | ⟨d, _ | bs⟩
  · simp
  · simp
  · simp only [Option.some.injEq, Prod.mk.injEq]
    cases hp : parse bs with
    | none => simp [hp]
    | some j =>
      cases hr : read j with
      | ok w => simp [hp, hr, eq_comm]
      | err => simp [hp, hr]
      | panic => simp [hp, hr]

theorem readJson_err {α : Type} (parse : Bytes → Option Json) (read : Json → Outcome α) (b : Behaviour) (t T : Nat) (e : ReqError)
    (h : readJson parse read b t = some (T, .err e)) : e = errOf .decode := by
  unfold readJson readBytes at h
  rcases hb : b.body with _ | ⟨d, _ | bs⟩
  · rw [hb] at h; cases h
  · rw [hb] at h; simp only [Option.some.injEq, Prod.mk.injEq, AsyncRes.err.injEq] at h; exact h.2.symm
  · rw [hb] at h
    simp only at h
    cases hp : parse bs with
    | none => rw [hp] at h; simp only [Option.some.injEq, Prod.mk.injEq, AsyncRes.err.injEq] at h; exact h.2.symm
    | some j =>
      rw [hp] at h
      simp only at h
      cases hr : read j with
      | ok w => rw [hr] at h; simp at h
      | err => rw [hr] at h; simp only [Option.some.injEq, Prod.mk.injEq, AsyncRes.err.injEq] at h; exact h.2.symm
      | panic => rw [hr] at h; simp at h

theorem readJson_none {α : Type} (parse : Bytes → Option Json) (read : Json → Outcome α) (b : Behaviour) (t : Nat) :
    readJson parse read b t = none ↔ b.body = none := by
  unfold readJson readBytes
  rcases hb : b.body with _ | ⟨d, _ | bs⟩
  · simp
  · simp
  · simp only [reduceCtorEq, iff_false]
    cases hp : parse bs with
    | none => simp
    | some j => cases hr : read j <;> simp [hr]

theorem readJson_time {α : Type} (parse : Bytes → Option Json) (read : Json → Outcome α) (b : Behaviour) (t T : Nat)
    (r : AsyncRes ReqError α) (h : readJson parse read b t = some (T, r)) : ∃ d x, b.body = some (d, x) ∧ T = t + d := by
  unfold readJson readBytes at h
  rcases hb : b.body with _ | ⟨d, _ | bs⟩
  · rw [hb] at h; cases h
  · rw [hb] at h; simp only [Option.some.injEq, Prod.mk.injEq] at h; exact ⟨d, _, rfl, h.1.symm⟩
  · refine ⟨d, _, rfl, ?_⟩
    rw [hb] at h
    simp only at h
    cases hp : parse bs with
    | none => rw [hp] at h; simp only [Option.some.injEq, Prod.mk.injEq] at h; exact h.1.symm
    | some j =>
      rw [hp] at h
      simp only at h
      cases hr : read j <;> rw [hr] at h <;> simp only [Option.some.injEq, Prod.mk.injEq] at h <;> exact h.1.symm

/-- The last step of a query, on the result of `fetch`. -/
def afterFetch {G : Type} (E : NodeEnv G) (q : NodeReq) (b : Behaviour) :
    Option (Nat × AsyncRes ReqError Response) → Option (Nat × AsyncRes NodeError (NodeAnswer G))
  | none => none
  | some (t, .ok _) => match readJson E.parse (readAnswer E.fl E.pc q) b t with
    | none => none
    | some (T, .ok v) => some (T, .ok v)
    | some (T, .err e) => some (T, .err (.reqwest e))
    | some (T, .thrown) => some (T, .thrown)
  | some (t, .err e) => some (t, .err (.reqwest e))
  | some (t, .thrown) => some (t, .thrown)

theorem nodeQuery_sent {G : Type} (E : NodeEnv G) (n : NodeConf) (q : NodeReq) (b : Behaviour) (s : Sent)
    (h : nodeRequest E.base E.hasHost n q = some s) :
    nodeQuery E n q b = afterFetch E q b (fetchAnswer E.parseUrl s.timer b) := by
  have hp : ∃ p, q.path = some p := by
    unfold nodeRequest at h
    cases hq : q.path with
    | none => rw [hq] at h; cases h
    | some p => exact ⟨p, rfl⟩
  obtain ⟨p, hp⟩ := hp
  unfold nodeQuery afterFetch
  rw [hp, h]
  simp only
  rcases fetchAnswer E.parseUrl s.timer b with _ | ⟨t, r | e | _⟩
  · rfl
  · simp only
    rcases readJson E.parse (readAnswer E.fl E.pc q) b t with _ | ⟨T, v | e | _⟩ <;> rfl
  · rfl
  · rfl

theorem nodeQuery_unsent {G : Type} (E : NodeEnv G) (n : NodeConf) (q : NodeReq) (b : Behaviour)
    (h : nodeRequest E.base E.hasHost n q = none) :
    nodeQuery E n q b = some (0, .err (if q.path = none then .invalidSegment else .reqwest (errOf .builder))) := by
  unfold nodeQuery
  cases hp : q.path with
  | none => rfl
  | some p => rw [h]; rfl

end Verif.Http
