import Verif.Proofs.HttpAnswer
import Verif.Props.Http
import Verif.Props.NodeReq
import Verif.Props.JsonHeader
import Verif.Props.JsonProofs

set_option linter.unusedSimpArgs false
set_option linter.unusedVariables false

/-!
# C108: the answers of nodes
-/

namespace Verif
open Spec Http

section
variable {G : Type}

/-- C108: a query gives a value exactly if the request is sent, the head of a well-formed answer comes before the timer, and then a body
comes that is JSON of the value asked for; the value is there when the body is. -/
theorem C108_value (E : NodeEnv G) (n : NodeConf) (q : NodeReq) (b : Behaviour) (T : Nat) (v : NodeAnswer G) :
    nodeQuery E n q b = some (T, .ok v) ↔ ∃ s js t d bs j, nodeRequest E.base E.hasHost n q = some s ∧ HeadAt s.timer b t js ∧
      Wellformed E.parseUrl js ∧ b.body = some (d, some bs) ∧ T = t + d ∧ E.parse bs = some j ∧
      readAnswer E.fl E.pc q j = .ok v := by
  cases hs : nodeRequest E.base E.hasHost n q with
  | none =>
    rw [nodeQuery_unsent E n q b hs]
    simp
  | some s =>
    rw [nodeQuery_sent E n q b s hs]
    constructor
    · intro h
      rcases hf : fetchAnswer E.parseUrl s.timer b with _ | ⟨t, r | e | _⟩
      · rw [hf] at h; cases h
      · rw [hf] at h
        obtain ⟨js, h1, h2⟩ := (fetchAnswer_ok ..).1 hf
        have hw := (ofJs_ok E.parseUrl js).1 ⟨r, h2⟩
        rcases hj : readJson E.parse (readAnswer E.fl E.pc q) b t with _ | ⟨T', w | e | _⟩ <;>
          simp only [afterFetch, hj, Option.some.injEq, Prod.mk.injEq, AsyncRes.ok.injEq, reduceCtorEq, and_false] at h
        obtain ⟨rfl, rfl⟩ := h
        obtain ⟨d, bs, j, h3, h4, h5, h6⟩ := (readJson_ok ..).1 hj
        exact ⟨s, js, t, d, bs, j, rfl, h1, hw, h3, h4, h5, h6⟩
      · rw [hf] at h; simp [afterFetch] at h
      · rw [hf] at h; simp [afterFetch] at h
    · rintro ⟨s', js, t, d, bs, j, h1, h2, h3, h4, h5, h6, h7⟩
      cases h1
      obtain ⟨r, hr⟩ := (ofJs_ok E.parseUrl js).2 h3
      rw [(fetchAnswer_ok ..).2 ⟨js, h2, hr⟩]
      simp only [afterFetch, (readJson_ok E.parse (readAnswer E.fl E.pc q) b t T v).2 ⟨d, bs, j, h4, h5, h6, h7⟩]

/-- C108: an honest answer in time is what the query gives: information on the node, a header with its distance, a NiPoPoW proof whose
headers have their distances, a Merkle proof or the statement that there is none. -/
theorem C108_honest [DecidableEq G] (E : NodeEnv G) (n : NodeConf) (q : NodeReq) (s : Sent) (b : Behaviour) (t d : Nat)
    (js : JsResponse) (bs : Bytes) (hs : nodeRequest E.base E.hasHost n q = some s) (h1 : HeadAt s.timer b t js)
    (h2 : Wellformed E.parseUrl js) (h3 : b.body = some (d, some bs)) :
    (∀ i, q = .info → E.parse bs = some (writeNodeInfo i) → nodeQuery E n q b = some (t + d, .ok (.info i))) ∧
    (∀ id h x, q = .header id → HeaderSizes h → h.solution.distance = some x → E.parse bs = some (writeHeader E.pc h) →
      nodeQuery E n q b = some (t + d, .ok (.header h))) ∧
    (∀ m k id p, q = .popow m k id → NipopowSizes p → (∀ x ∈ nipopowHeaders p, x.solution.distance ≠ none) →
      E.parse bs = some (writeNipopow E.pc p) → nodeQuery E n q b = some (t + d, .ok (.popow p))) ∧
    (∀ id tx p, q = .txProof id tx → (∀ l ∈ p.levels, LevelSizes l) → E.parse bs = some (writeProof p) →
      nodeQuery E n q b = some (t + d, .ok (.txProof (some p)))) ∧
    (∀ id tx, q = .txProof id tx → E.parse bs = some .null → nodeQuery E n q b = some (t + d, .ok (.txProof none))) := by
  refine ⟨?_, ?_, ?_, ?_, ?_⟩
  · rintro i rfl hp
    refine (C108_value E n _ b _ _).2 ⟨s, js, t, d, bs, _, hs, h1, h2, h3, rfl, hp, ?_⟩
    have : readNodeInfo (writeNodeInfo i) = .ok i := by cases i; rfl
    unfold readAnswer
    simp only [this]
    rfl
  · rintro id h x rfl g hx hp
    refine (C108_value E n _ b _ _).2 ⟨s, js, t, d, bs, _, hs, h1, h2, h3, rfl, hp, ?_⟩
    unfold readAnswer
    simp only [C88_roundtrip_partial E.fl E.pc h g x hx]
    rfl
  · rintro m k id p rfl g hx hp
    refine (C108_value E n _ b _ _).2 ⟨s, js, t, d, bs, _, hs, h1, h2, h3, rfl, hp, ?_⟩
    unfold readAnswer
    simp only [C89_nipopow_roundtrip_partial E.fl E.pc p g hx]
    rfl
  · rintro id tx p rfl g hp
    refine (C108_value E n _ b _ _).2 ⟨s, js, t, d, bs, _, hs, h1, h2, h3, rfl, hp, ?_⟩
    have := C89_merkle_roundtrip p g
    unfold readAnswer
    unfold writeProof at this ⊢
    simp only [this]
    rfl
  · rintro id tx rfl hp
    exact (C108_value E n _ b _ _).2 ⟨s, js, t, d, bs, _, hs, h1, h2, h3, rfl, hp, rfl⟩

/-- C108: the errors of a query: a length of zero, a request that cannot be sent, no well-formed answer (a rejection, the timer, or an
answer with a bad status or header), or a body that is not there or not what was asked for. -/
theorem C108_errors (E : NodeEnv G) (n : NodeConf) (q : NodeReq) (b : Behaviour) (T : Nat) (e : NodeError)
    (h : nodeQuery E n q b = some (T, .err e)) :
    (e = .invalidSegment ∧ ¬ NodeReqOk q ∧ T = 0) ∨
    ∃ r, e = .reqwest r ∧ NodeReqOk q ∧
      ((r.isBuilder = true ∧ nodeRequest E.base E.hasHost n q = none ∧ T = 0) ∨
       (r.isRequest = true ∧ ∃ s, nodeRequest E.base E.hasHost n q = some s ∧
          ∀ t js, HeadAt s.timer b t js → ¬ Wellformed E.parseUrl js) ∨
       (r.isDecode = true ∧ ∃ s t js, nodeRequest E.base E.hasHost n q = some s ∧ HeadAt s.timer b t js ∧
          Wellformed E.parseUrl js ∧ ∀ d bs j v, b.body = some (d, some bs) → E.parse bs = some j →
            readAnswer E.fl E.pc q j ≠ .ok v)) := by
  have hq : q.path = none ↔ ¬ NodeReqOk q := by
    cases hp : q.path with
    | none =>
      simp only [true_iff]
      intro ho
      rw [(C103_path q _).2 ⟨ho, rfl⟩] at hp
      cases hp
    | some p => simp [((C103_path q p).1 hp).1]
  cases hs : nodeRequest E.base E.hasHost n q with
  | none =>
    rw [nodeQuery_unsent E n q b hs] at h
    simp only [Option.some.injEq, Prod.mk.injEq, AsyncRes.err.injEq] at h
    obtain ⟨rfl, h⟩ := h
    by_cases hp : q.path = none
    · rw [if_pos hp] at h
      exact .inl ⟨h.symm, hq.1 hp, rfl⟩
    · rw [if_neg hp] at h
      refine .inr ⟨_, h.symm, ?_, .inl ⟨rfl, rfl, rfl⟩⟩
      by_contra hc
      exact hp (hq.2 hc)
  | some s =>
    have ho : NodeReqOk q := ((C103_sent E.base E.hasHost n q).1 (by rw [hs]; rfl)).1
    rw [nodeQuery_sent E n q b s hs] at h
    right
    rcases hf : fetchAnswer E.parseUrl s.timer b with _ | ⟨t, r | r | _⟩
    · rw [hf] at h; cases h
    · rw [hf] at h
      obtain ⟨js, h1, h2⟩ := (fetchAnswer_ok ..).1 hf
      rcases hj : readJson E.parse (readAnswer E.fl E.pc q) b t with _ | ⟨T', w | r' | _⟩ <;>
        simp only [afterFetch, hj, Option.some.injEq, Prod.mk.injEq, AsyncRes.err.injEq, reduceCtorEq, and_false] at h
      obtain ⟨rfl, rfl⟩ := h
      refine ⟨r', rfl, ho, .inr (.inr ⟨?_, s, t, js, rfl, h1, (ofJs_ok E.parseUrl js).1 ⟨r, h2⟩, ?_⟩)⟩
      · rw [readJson_err _ _ _ _ _ _ hj]; rfl
      · intro d bs j v h3 h4 h5
        rw [(readJson_ok E.parse (readAnswer E.fl E.pc q) b t (t + d) v).2 ⟨d, bs, j, h3, rfl, h4, h5⟩] at hj
        cases hj
    · rw [hf] at h
      simp only [afterFetch, Option.some.injEq, Prod.mk.injEq, AsyncRes.err.injEq] at h
      refine ⟨r, h.2.symm, ho, .inr (.inl ⟨?_, s, rfl, ?_⟩)⟩
      · rw [fetchAnswer_err _ _ _ _ _ hf]; rfl
      · intro t' js h1 h2
        obtain ⟨x, hx⟩ := (ofJs_ok E.parseUrl js).2 h2
        rw [(fetchAnswer_ok ..).2 ⟨js, h1, hx⟩] at hf
        cases hf
    · rw [hf] at h; simp [afterFetch] at h

/-- C108, partial (the body is not under the limit, see the violation): a query whose answer does not begin within the limit of the
configuration, in whole milliseconds, ends with an error at the limit. -/
theorem C108_limit_partial (E : NodeEnv G) (n : NodeConf) (q : NodeReq) (b : Behaviour) (s : Sent)
    (hs : nodeRequest E.base E.hasHost n q = some s) (hl : ∀ t, n.timeout = some t → t < 2 ^ 31 * 1000000)
    (h : LateHead ((n.timeout.getD 30000000000) / 1000000) b) :
    ∃ r, nodeQuery E n q b = some ((n.timeout.getD 30000000000) / 1000000, .err (.reqwest r)) ∧ r.isRequest = true := by
  have ht := C103_limit_partial E.base E.hasHost n q s hs hl
  refine ⟨errOf .request, ?_, rfl⟩
  rw [nodeQuery_sent E n q b s hs, ht, fetchAnswer_late (by rw [Int.toNat_natCast]; exact h)]
  simp only [afterFetch, Int.toNat_natCast]

/-- C108, violation: the timer is cleared when the head of the answer is there.  However short the limit, a node that answers in time and
does not send the body keeps the query waiting for ever, and one that sends it late gets its value accepted. -/
theorem C108_limit_violates (E : NodeEnv G) (n : NodeConf) (q : NodeReq) (s : Sent)
    (hs : nodeRequest E.base E.hasHost n q = some s) (js : JsResponse) (hw : Wellformed E.parseUrl js)
    (t : Nat) (hl : ∀ a, s.timer = some a → t < a.toNat) :
    nodeQuery E n q ⟨some (t, some js), none, false⟩ = none ∧
    ∀ d bs j v, E.parse bs = some j → readAnswer E.fl E.pc q j = .ok v →
      nodeQuery E n q ⟨some (t, some js), some (d, some bs), false⟩ = some (t + d, .ok v) := by
  constructor
  · obtain ⟨r, hr⟩ := (ofJs_ok E.parseUrl js).2 hw
    rw [nodeQuery_sent E n q _ s hs, (fetchAnswer_ok ..).2 ⟨js, ⟨rfl, fun a ha => .inl (hl a ha)⟩, hr⟩]
    simp only [afterFetch, (readJson_none E.parse (readAnswer E.fl E.pc q) ⟨some (t, some js), none, false⟩ t).2 rfl]
  · intro d bs j v h1 h2
    exact (C108_value ..).2 ⟨s, js, t, d, bs, j, hs, ⟨rfl, fun a ha => .inl (hl a ha)⟩, hw, rfl, rfl, h1, h2⟩

/-- C108, violation: the status of an answer is not looked at.  What a query gives is the same for all status codes, so that a value
can come with an answer that says it is an error, and no error of a query carries a status. -/
theorem C108_status_violates (E : NodeEnv G) (n : NodeConf) (q : NodeReq) (t : Nat) (js : JsResponse) (body : Option (Nat × Option Bytes))
    (tie : Bool) (c : Nat) (h1 : 100 ≤ js.status ∧ js.status < 1000) (h2 : 100 ≤ c ∧ c < 1000) :
    nodeQuery E n q ⟨some (t, some { js with status := c }), body, tie⟩ = nodeQuery E n q ⟨some (t, some js), body, tie⟩ ∧
    ∀ b T r, nodeQuery E n q b = some (T, .err (.reqwest r)) → r.isStatus = false ∧ r.statusCode = none := by
  constructor
  · cases hs : nodeRequest E.base E.hasHost n q with
    | none => rw [nodeQuery_unsent E n q _ hs, nodeQuery_unsent E n q _ hs]
    | some s =>
      rw [nodeQuery_sent E n q _ s hs, nodeQuery_sent E n q _ s hs]
      rcases fetch_cases s.timer ⟨some (t, some js), body, tie⟩ with ⟨t', r', h3, h4⟩ | ⟨a, h3, h4⟩ | ⟨h3, h4⟩
      · simp only [Option.some.injEq, Prod.mk.injEq] at h3
        obtain ⟨rfl, rfl⟩ := h3
        rw [fetchAnswer_head (b := ⟨some (t, some { js with status := c }), body, tie⟩) rfl h4,
          fetchAnswer_head (b := ⟨some (t, some js), body, tie⟩) rfl h4]
        unfold settledAs ofJs
        simp only [h1, h2, and_self, if_true]
        by_cases hu : E.parseUrl js.url = true
        · simp only [hu, if_true]
          cases addHeaders js.headers (some []) with
          | none => rfl
          | some h => rfl
        · simp only [hu]; rfl
      · have h5 : LateHead a.toNat ⟨some (t, some { js with status := c }), body, tie⟩ := by
          intro t' r hr
          simp only [Option.some.injEq, Prod.mk.injEq] at hr
          obtain ⟨rfl, _⟩ := hr
          exact h4 t (some js) rfl
        rw [h3, fetchAnswer_late h4, fetchAnswer_late h5]
        rfl
      · cases h4
  · intro b T r h
    rcases C108_errors E n q b T _ h with ⟨h, _⟩ | ⟨r', h', _, h5⟩
    · cases h
    · cases h'
      cases r with
      | mk k ss u =>
        rcases h5 with ⟨h, _⟩ | ⟨h, _⟩ | ⟨h, _⟩ <;> cases k <;> first | exact ⟨rfl, rfl⟩ | cases h

/-- C108, violation: the header, the NiPoPoW proof and the Merkle proof of an answer are not compared with what was asked for.  The
same answer gives the same value for every other header, other parameters or another transaction. -/
theorem C108_other_violates (E : NodeEnv G) (n : NodeConf) (b : Behaviour) (hh : ∀ u, E.hasHost u = true) :
    (∀ id id' T v, nodeQuery E n (.header id) b = some (T, .ok v) → nodeQuery E n (.header id') b = some (T, .ok v)) ∧
    (∀ m k id m' k' id' T v, m' ≠ 0 → k' ≠ 0 → nodeQuery E n (.popow m k id) b = some (T, .ok v) →
      nodeQuery E n (.popow m' k' id') b = some (T, .ok v)) ∧
    (∀ id tx id' tx' T v, nodeQuery E n (.txProof id tx) b = some (T, .ok v) →
      nodeQuery E n (.txProof id' tx') b = some (T, .ok v)) := by
  have key : ∀ q q' T v, NodeReqOk q' → (∀ j, readAnswer E.fl E.pc q' j = readAnswer E.fl E.pc q j) →
      nodeQuery E n q b = some (T, .ok v) → nodeQuery E n q' b = some (T, .ok v) := by
    intro q q' T v ho hr h
    obtain ⟨s, js, t, d, bs, j, h1, h2, h3, h4, h5, h6, h7⟩ := (C108_value ..).1 h
    obtain ⟨s', hs'⟩ := Option.isSome_iff_exists.1 ((C103_sent E.base E.hasHost n q').2 ⟨ho, hh _⟩)
    have e : s'.timer = s.timer := by
      have hq : NodeReqOk q := ((C103_sent E.base E.hasHost n q).1 (by rw [h1]; rfl)).1
      rw [nodeRequest_eq E.base E.hasHost n q hq] at h1
      rw [nodeRequest_eq E.base E.hasHost n q' ho] at hs'
      rw [((sent_all [] n.timeout E.hasHost _ _ _ (by simp) (nodeCalls_maps n)).2 s h1).2.2.2.2.2.2,
        ((sent_all [] n.timeout E.hasHost _ _ _ (by simp) (nodeCalls_maps n)).2 s' hs').2.2.2.2.2.2]
    exact (C108_value ..).2 ⟨s', js, t, d, bs, j, hs', by rw [e]; exact h2, h3, h4, h5, h6, by rw [hr]; exact h7⟩
  refine ⟨fun id id' T v => key _ _ T v trivial fun j => rfl, ?_, fun id tx id' tx' T v => key _ _ T v trivial fun j => rfl⟩
  intro m k id m' k' id' T v hm hk
  exact key _ _ T v ⟨hm, hk⟩ fun j => rfl

/-- C108, violation: a node can make the caller panic, with a header whose votes are a list with a negative number. -/
theorem C108_panic_violates [DecidableEq G] (E : NodeEnv G) (n : NodeConf) (id : Bytes) (s : Sent)
    (hs : nodeRequest E.base E.hasHost n (.header id) = some s) (b : Behaviour) (t d : Nat) (js : JsResponse) (bs : Bytes)
    (h1 : HeadAt s.timer b t js) (h2 : Wellformed E.parseUrl js) (h3 : b.body = some (d, some bs))
    (h : Header G) (g : HeaderSizes h) (i : Int) (hd : h.solution.distance = some i)
    (hp : E.parse bs = some (.obj (headerFields E.pc h ++ [(kVotes, .arr [.num (.neg 1)])]))) :
    nodeQuery E n (.header id) b = some (t + d, .thrown) := by
  have hr : readAnswer E.fl E.pc (.header id) (.obj (headerFields E.pc h ++ [(kVotes, .arr [.num (.neg 1)])])) = .panic := by
    unfold readAnswer
    have := C88_votes_panic_violates E.fl E.pc h g i hd [.neg 1] (.neg 1) (by simp) (by intro n h; cases h)
    simp only [List.map_cons, List.map_nil] at this
    simp only [this]
    rfl
  obtain ⟨r, hr'⟩ := (ofJs_ok E.parseUrl js).2 h2
  rw [nodeQuery_sent E n _ b s hs, (fetchAnswer_ok ..).2 ⟨js, h1, hr'⟩]
  simp only [afterFetch, readJson, readBytes, h3, hp, hr]

/-- C108, violation: `is_timeout` is false for every error of a query, also for the one made by the timer. -/
theorem C108_timeout_violates (E : NodeEnv G) (n : NodeConf) (q : NodeReq) (b : Behaviour) (T : Nat) (r : ReqError)
    (h : nodeQuery E n q b = some (T, .err (.reqwest r))) : r.isTimeout = false := by
  cases hs : nodeRequest E.base E.hasHost n q with
  | none =>
    rw [nodeQuery_unsent E n q b hs] at h
    simp only [Option.some.injEq, Prod.mk.injEq, AsyncRes.err.injEq] at h
    obtain ⟨_, h⟩ := h
    split at h
    · cases h
    · cases h; rfl
  | some s =>
    rw [nodeQuery_sent E n q b s hs] at h
    rcases hf : fetchAnswer E.parseUrl s.timer b with _ | ⟨t, x | x | _⟩
    · rw [hf] at h; cases h
    · rw [hf] at h
      rcases hj : readJson E.parse (readAnswer E.fl E.pc q) b t with _ | ⟨T', w | r' | _⟩ <;>
        simp only [afterFetch, hj, Option.some.injEq, Prod.mk.injEq, AsyncRes.err.injEq, reduceCtorEq, and_false] at h
      obtain ⟨_, h⟩ := h
      cases h
      rw [readJson_err _ _ _ _ _ _ hj]; rfl
    · rw [hf] at h
      simp only [afterFetch, Option.some.injEq, Prod.mk.injEq, AsyncRes.err.injEq] at h
      obtain ⟨_, h⟩ := h
      cases h
      rw [fetchAnswer_err _ _ _ _ _ hf]; rfl
    · rw [hf] at h; simp [afterFetch] at h

end

/-- C108, violation: in the mode `no-cors` of the request builder an answer of another origin makes the client panic, because the
answer has no URL. -/
theorem C108_no_cors_violates (ms : List HeaderMap) (lim : Option Nat) (hasHost parseUrl : Text → Bool) (m u : Text) (cs : List Call)
    (s : Sent) (hm : ∀ h ∈ ms, MapOk h) (hc : MapsOk cs) (h : sentBy ms lim hasHost m u cs = some s) (hn : Call.noCors ∈ cs)
    (hu : parseUrl [] = false) :
    s.noCors = true ∧ ∀ b t, HeadAt s.timer b t opaqueAnswer → fetchAnswer parseUrl s.timer b = some (t, .thrown) := by
  refine ⟨(C102_rest ms lim hasHost m u cs s hm hc h).2.2.1.2 hn, fun b t ⟨h1, h2⟩ => ?_⟩
  rw [fetchAnswer_head h1 h2]
  unfold settledAs ofJs opaqueAnswer
  simp [hu]

/-- C108: `error_for_status` tells the answers with status 4xx and 5xx from the others; the error has the status and the URL. -/
theorem C108_error_for_status (r : Response) :
    ((∃ x, r.errorForStatus = .ok x) ↔ r.status < 400 ∨ 600 ≤ r.status) ∧ (∀ x, r.errorForStatus = .ok x → x = r) ∧
    r.errorForStatus ≠ .thrown ∧
    ∀ e, r.errorForStatus = .err e → e.isStatus = true ∧ e.statusCode = some r.status ∧ e.url = some r.url ∧ e.isTimeout = false := by
  unfold Response.errorForStatus
  by_cases h : statusIsError r.status = true
  · have hs : ¬ (r.status < 400 ∨ 600 ≤ r.status) := by
      unfold statusIsError at h
      simp at h
      omega
    rw [if_pos h]
    refine ⟨⟨fun ⟨x, hx⟩ => (by cases hx), fun h => absurd h hs⟩, fun x hx => (by cases hx), by simp, fun e he => ?_⟩
    cases he
    exact ⟨rfl, rfl, rfl, rfl⟩
  · have hs : r.status < 400 ∨ 600 ≤ r.status := by
      unfold statusIsError at h
      simp at h
      omega
    rw [if_neg h]
    exact ⟨⟨fun _ => hs, fun _ => ⟨r, rfl⟩⟩, fun x hx => (by cases hx; rfl), by simp, fun e he => (by cases he)⟩

/-- C108: a response has the status, the URL and, name by name, the headers of the browser's answer; of names in capitals too. -/
theorem C108_headers (parseUrl : Text → Bool) (timer : Option Int) (b : Behaviour) (t : Nat) (r : Response)
    (h : fetchAnswer parseUrl timer b = some (t, .ok r)) :
    ∃ js, HeadAt timer b t js ∧ Wellformed parseUrl js ∧ r.status = js.status ∧ r.url = js.url ∧
      ∀ n, r.headers.values n = answerValues js.headers n := by
  obtain ⟨js, h1, h2⟩ := (fetchAnswer_ok ..).1 h
  obtain ⟨h3, h4, h5⟩ := ofJs_fields _ _ _ h2
  exact ⟨js, h1, (ofJs_ok _ _).1 ⟨r, h2⟩, h3, h4, fun n => by rw [values_ofMap]; exact h5 n⟩

/-- C108: the length of the content is the number in the first `content-length` header; there is none without this header. -/
theorem C108_content_length (r : Response) :
    (r.headers.values "content-length".toList = [] → r.contentLength = none) ∧
    (∀ n vs, n < 2 ^ 64 → r.headers.values "content-length".toList = decimal n :: vs → r.contentLength = some n) ∧
    ∀ n, r.contentLength = some n → n < 2 ^ 64 ∧ ∃ v vs, r.headers.values "content-length".toList = v :: vs ∧ Printable v := by
  have e : "content-length".toList = kContentLength := rfl
  rw [e]
  unfold Response.contentLength
  refine ⟨fun h => by rw [h], fun n vs hn h => ?_, fun n h => ?_⟩
  · rw [h]
    have : (decimal n).all visible = true := by
      rw [visible_all]
      intro c hc
      have := decimal_digits n c hc
      omega
    simp only [this, if_true]
    exact parseUint_decimal hn
  · cases hv : r.headers.values kContentLength with
    | nil => rw [hv] at h; cases h
    | cons v vs =>
      rw [hv] at h
      simp only at h
      split at h
      · rename_i hp
        exact ⟨parseUint_lt (by norm_num) h, v, vs, rfl, (visible_all v).1 hp⟩
      · cases h

/-! ## Cases -/

/-- A browser that knows one answer, the header in the examples of C88, as the body `[1]`; `[2]` is the same header with bad votes. -/
def haEnv : NodeEnv (Fin 3) where
  base := fun _ => ['h', '/']
  hasHost := fun _ => true
  parseUrl := fun u => !u.isEmpty
  parse := fun bs => if bs = [1] then some (writeHeader toyCodec headerV1)
    else if bs = [2] then some (.obj (headerFields toyCodec headerV1 ++ [(kVotes, .arr [.num (.neg 1)])])) else none
  fl := fun _ => none
  pc := toyCodec

/-- A configuration with a limit of five seconds. -/
def haConf : NodeConf := ⟨.v4 1 2 3 4 9053, none, some 5000000000⟩

/-- An answer with an error status. -/
def haJs : JsResponse := ⟨503, ['h'], [(['C', 'o', 'n', 't', 'e', 'n', 't', '-', 'L', 'e', 'n', 'g', 't', 'h'], ['1', '2'])]⟩

theorem haJs_ok : Wellformed haEnv.parseUrl haJs := by
  rw [← ofJs_ok]
  exact ⟨_, rfl⟩

theorem ha_sent (q : NodeReq) (hq : NodeReqOk q) : ∃ s, nodeRequest haEnv.base haEnv.hasHost haConf q = some s ∧ s.timer = some 5000 := by
  obtain ⟨s, h⟩ := Option.isSome_iff_exists.1 ((C103_sent haEnv.base haEnv.hasHost haConf q).2 ⟨hq, rfl⟩)
  exact ⟨s, h, C103_limit_partial _ _ _ _ s h (by intro t h; cases h; decide)⟩

/-- A node that answers with status 503 and sends a header after a day: the header is taken, whatever was asked for. -/
example (id : Bytes) : nodeQuery haEnv haConf (.header id) ⟨some (20, some haJs), some (86400000, some [1]), false⟩ =
    some (86400020, .ok (.header headerV1)) := by
  obtain ⟨s, h1, h2⟩ := ha_sent (.header id) trivial
  exact (C108_honest haEnv haConf (.header id) s _ 20 86400000 haJs [1] h1 ⟨rfl, fun a ha => by rw [h2] at ha; cases ha; exact .inl (by decide)⟩
    haJs_ok rfl).2.1 id headerV1 (-300) rfl headerV1_sizes rfl rfl

/-- A node that makes the client panic. -/
example (id : Bytes) : nodeQuery haEnv haConf (.header id) ⟨some (20, some haJs), some (1, some [2]), false⟩ = some (21, .thrown) := by
  obtain ⟨s, h1, h2⟩ := ha_sent (.header id) trivial
  exact C108_panic_violates haEnv haConf id s h1 _ 20 1 haJs [2] ⟨rfl, fun a ha => by rw [h2] at ha; cases ha; exact .inl (by decide)⟩
    haJs_ok rfl headerV1 headerV1_sizes (-300) rfl rfl

/-- A node that does not answer, and one that does not end its answer. -/
example : (∃ r, nodeQuery haEnv haConf .info ⟨none, none, false⟩ = some (5000, .err (.reqwest r)) ∧ r.isTimeout = false) ∧
    nodeQuery haEnv haConf .info ⟨some (20, some haJs), none, false⟩ = none := by
  obtain ⟨s, h1, h2⟩ := ha_sent .info trivial
  constructor
  · obtain ⟨r, hr, _⟩ := C108_limit_partial haEnv haConf .info ⟨none, none, false⟩ s h1 (by intro t h; cases h; decide)
      (by intro t r h; cases h)
    exact ⟨r, hr, C108_timeout_violates _ _ _ _ _ _ hr⟩
  · exact (C108_limit_violates haEnv haConf .info s h1 haJs haJs_ok 20 (by intro a ha; rw [h2] at ha; cases ha; decide)).1

/-- The length of the content, and the status as an error. -/
example : ∃ r, ofJs haEnv.parseUrl haJs = .ok r ∧ r.contentLength = some 12 ∧ r.errorForStatus = .err ⟨.status 503, [], some ['h']⟩ :=
  ⟨_, rfl, by decide, rfl⟩

/-- A request in the mode `no-cors`. -/
example (s : Sent) (h : sentBy [] none (fun _ => true) ['G', 'E', 'T'] ['u'] [.noCors] = some s) :
    fetchAnswer haEnv.parseUrl s.timer ⟨some (7, some opaqueAnswer), none, false⟩ = some (7, .thrown) := by
  have ht : s.timer = some 30000 :=
    C102_limit_partial [] none _ _ _ _ s (by simp) (by intro h hh; simp at hh) h 30000000000 rfl (by decide)
  exact (C108_no_cors_violates [] none _ haEnv.parseUrl _ _ _ s (by simp) (by intro h hh; simp at hh) h (by simp) rfl).2 _ 7
    ⟨rfl, fun a ha => by rw [ht] at ha; cases ha; exact .inl (by decide)⟩

end Verif
