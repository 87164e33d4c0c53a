import Verif.Proofs.Requests

/-!
# C110: the callbacks of a request
-/

set_option linter.unusedSimpArgs false
set_option linter.unusedVariables false

namespace Verif
open Requests Spec.Requests

/-- A request just started by a caller with the data 7; answers are numbers. -/
def c110Req : Req Nat := { cb := ⟨7⟩, phase := .waiting, flag := false, aborting := 0, handle := true, log := [] }

theorem c110Req_fresh : Fresh 7 c110Req := ⟨rfl, rfl, rfl, rfl, rfl, rfl⟩

section
variable {α : Type}

/-! ## Starting -/

/-- A request is started exactly when the arguments are good; otherwise there is an error (the array of seeds being as long as it is said
to be, and the variable for the handle being there). -/
theorem C110_start (isUrl : Text → Bool) (q : Query) (cb : Callback) (o : Nat) (hs : Sized q) :
    (Good isUrl q → ∃ r : Req α, start isUrl q cb (some o) = .running r ∧ Fresh cb.user r) ∧
    (¬ Good isUrl q → ∃ e, (start isUrl q cb (some o) : Started α) = .err e) := by
  have key : ∃ x, checks isUrl q = some x ∧ (x = .ok () ↔ Good isUrl q) := by
    cases q with
    | info rt conf => exact ⟨_, rfl, by rw [need_ok]; simp [Good]⟩
    | header rt conf id => exact ⟨_, rfl, by rw [need_ok]; simp [Good]⟩
    | proof rt conf id tx => exact ⟨_, rfl, by rw [need_ok]; simp [Good]⟩
    | nipopow rt conf id => exact ⟨_, rfl, by rw [need_ok]; simp [Good]⟩
    | peers rt seeds n par =>
      cases seeds with
      | none => exact ⟨_, rfl, by simp [Good]⟩
      | some l =>
        by_cases hn : n = 0
        · exact ⟨.error (.misc "num_seeds must be > 0"), by simp [checks, hn], by simp [Good, hn]⟩
        · obtain ⟨x, hx, hiff⟩ := readSeeds_some isUrl n l hs
          cases x with
          | error e =>
            refine ⟨.error e, by simp [checks, hn, hx], ?_⟩
            constructor
            · intro h; cases h
            · rintro ⟨_, _, _, l', hl', _, hall⟩
              cases hl'
              obtain ⟨ts, hts⟩ := hiff.2 hall
              cases hts
          | ok ts =>
            by_cases hp : par = 0
            · exact ⟨.error (.misc "max_parallel_requests must be > 0"), by simp [checks, hn, hx, hp], by simp [Good, hp]⟩
            · refine ⟨need [(rt, "runtime_ptr")], by simp [checks, hn, hx, hp], ?_⟩
              rw [need_ok]
              have hall := hiff.1 ⟨ts, rfl⟩
              constructor
              · intro h
                exact ⟨h (rt, "runtime_ptr") (by simp), by omega, by omega, l, rfl, hs, hall⟩
              · rintro ⟨h, _⟩ x hx
                simp only [List.mem_singleton] at hx
                subst hx
                exact h
  obtain ⟨x, hx, hiff⟩ := key
  constructor
  · intro hg
    have h := hiff.2 hg
    subst h
    refine ⟨{ cb := cb, phase := .waiting, flag := false, aborting := 0, handle := true, log := [] }, by simp only [start, hx],
      rfl, rfl, rfl, rfl, rfl, rfl⟩
  · intro hg
    cases x with
    | ok u => exact absurd (hiff.1 rfl) hg
    | error e => exact ⟨e, by simp only [start, hx]⟩

example : ∃ r : Req Nat, start (fun _ => true) (.peers (some 1) (some [some ['a'], some ['b'], none]) 2 4) ⟨7⟩ (some 0) = .running r ∧
    Fresh 7 r :=
  (C110_start _ _ _ 0 (by simp [Sized])).1
    ⟨by simp, by omega, by omega, _, rfl, by simp, by simp⟩

/-- The error names the first pointer that is null. -/
theorem C110_start_null (isUrl : Text → Bool) (cb : Callback) (o : Option Nat) (conf : Option Nat) (a b c : Nat) :
    (start isUrl (.info none conf) cb o : Started α) = .err (.invalidArgument "runtime_ptr") ∧
    (start isUrl (.info (some a) none) cb o : Started α) = .err (.invalidArgument "node_conf_ptr") ∧
    (start isUrl (.header (some a) (some b) none) cb o : Started α) = .err (.invalidArgument "header_id_ptr") ∧
    (start isUrl (.nipopow (some a) (some b) none) cb o : Started α) = .err (.invalidArgument "header_id_ptr") ∧
    (start isUrl (.proof (some a) (some b) (some c) none) cb o : Started α) = .err (.invalidArgument "tx_id_ptr") :=
  ⟨rfl, rfl, rfl, rfl, rfl⟩

example : (start (fun _ => true) (.peers none (some [some ['a']]) 1 4) ⟨7⟩ (some 0) : Started Nat) = .err (.invalidArgument "runtime_ptr") := rfl

/-! ## Callbacks -/

/-- Whatever the threads do and in whatever order, the completion function is called at most once. -/
theorem C110_completion_once (u : Nat) (r r' : Req α) (hf : Fresh u r) (as : List (Act α)) (h : steps r as = some r') :
    completions r'.log ≤ 1 := by
  obtain ⟨_, _, _, _, _, hl⟩ := hf
  exact (steps_once h (by simp [hl, completions]) (by simp [hl, completions])).1

example : ∃ r', steps c110Req [.pollBegin, .pollEnd .pending, .pollBegin, .pollEnd (.ready (.ok 5)), .abortFlag, .abortCall] = some r' ∧
    completions r'.log = 1 := ⟨_, rfl, rfl⟩

/-- It is called with the data of the caller and with what the query gave, value or error but never both or neither, and whenever the query
gives something.  The abort function is called with the same data. -/
theorem C110_completion_answer (u : Nat) (r r' : Req α) (hf : Fresh u r) (as : List (Act α)) (h : steps r as = some r') :
    (∀ e ∈ r'.log, e = .abort u ∨ ∃ x, Act.pollEnd (.ready x) ∈ as ∧ Says u x e) ∧
    (∀ x, Act.pollEnd (.ready x) ∈ as → ∃ e ∈ r'.log, Says u x e) := by
  obtain ⟨hu, _, _, _, _, hl⟩ := hf
  have hlog := steps_log h
  rw [hl, List.nil_append] at hlog
  constructor
  · intro e he
    rw [hlog, List.mem_filterMap] at he
    obtain ⟨a, ha, hae⟩ := he
    split at hae
    · cases hae
      exact .inr ⟨_, ha, hu ▸ report_says r.cb _⟩
    · cases hae; exact .inl (by rw [hu])
    · cases hae
  · intro x hx
    refine ⟨report r.cb x, ?_, hu ▸ report_says r.cb x⟩
    rw [hlog, List.mem_filterMap]
    exact ⟨_, hx, rfl⟩

example : ∃ r', steps c110Req [.pollBegin, .pollEnd (.ready .nothing)] = some r' ∧
    r'.log = [.completion 7 none (some (.misc "No merkle proof"))] := ⟨_, rfl, rfl⟩

/-- Without an abort, a request that is over has called the completion function exactly once and nothing else, unless the query panicked or
the runtime was deleted; before that it has called nothing.  Partial: with a panic or a deleted runtime there is no call at all
(`C110_silent_violates`). -/
theorem C110_exactly_once_partial (u : Nat) (r r' : Req α) (hf : Fresh u r) (as : List (Act α)) (h : steps r as = some r')
    (hna : ∀ a ∈ as, Aborts a = false) (hnp : Act.pollEnd .panics ∉ as) (hnd : Act.deleteRuntime ∉ as) :
    (r'.phase = .over → ∃ x e, Act.pollEnd (.ready x) ∈ as ∧ Says u x e ∧ r'.log = [e]) ∧ (r'.phase ≠ .over → r'.log = []) := by
  obtain ⟨hu, hph, hfl, hab, _, hl⟩ := hf
  have main : ∀ (as : List (Act α)) (r : Req α), r.flag = false → steps r as = some r' → r.cb.user = u → (r.phase ≠ .over → r.log = []) →
      (∀ a ∈ as, Aborts a = false) → Act.pollEnd .panics ∉ as → Act.deleteRuntime ∉ as →
      (r'.phase = .over → r.phase = .over ∧ r'.log = r.log ∨ ∃ x e, Act.pollEnd (.ready x) ∈ as ∧ Says u x e ∧ r'.log = [e]) ∧
        (r'.phase ≠ .over → r'.log = []) := by
    intro as
    induction as with
    | nil =>
      intro r _ h _ h1 _ _ _
      cases h
      exact ⟨fun hx => .inl ⟨hx, rfl⟩, h1⟩
    | cons a as ih =>
      intro r hfl h hu h1 hna hnp hnd
      simp only [steps] at h
      cases hs : step r a with
      | none => simp [hs] at h
      | some r1 =>
        simp only [hs] at h
        have hna' : ∀ a ∈ as, Aborts a = false := fun b hb => hna b (by simp [hb])
        have hnp' : Act.pollEnd .panics ∉ as := fun hb => hnp (by simp [hb])
        have hnd' : Act.deleteRuntime ∉ as := fun hb => hnd (by simp [hb])
        have hcb := (step_cases hs).1
        have wrap : r1.flag = false → (r1.phase ≠ .over → r1.log = []) →
            (r1.phase = .over → r.phase = .over ∧ r1.log = r.log ∨ ∃ x e, a = .pollEnd (.ready x) ∧ Says u x e ∧ r1.log = [e]) →
            (r'.phase = .over → r.phase = .over ∧ r'.log = r.log ∨
              ∃ x e, Act.pollEnd (.ready x) ∈ a :: as ∧ Says u x e ∧ r'.log = [e]) ∧ (r'.phase ≠ .over → r'.log = []) := by
          intro w1 w2 w3
          have hih := ih r1 w1 h (hcb ▸ hu) w2 hna' hnp' hnd'
          refine ⟨fun ho => ?_, hih.2⟩
          rcases hih.1 ho with ⟨h2, h3⟩ | ⟨x, e, hx, hsays, hle⟩
          · rcases w3 h2 with ⟨h4, h5⟩ | ⟨x, e, rfl, hsays, hle⟩
            · exact .inl ⟨h4, h3.trans h5⟩
            · exact .inr ⟨x, e, by simp, hsays, h3.trans hle⟩
          · exact .inr ⟨x, e, by simp [hx], hsays, hle⟩
        cases a with
        | pollBegin =>
          simp only [step] at hs
          split at hs <;> cases hs
          rename_i hp
          rw [hfl] at wrap
          exact wrap rfl (fun _ => h1 (by rw [hp]; simp)) (by simp)
        | pollEnd p =>
          simp only [step] at hs
          split at hs
          · rename_i hp
            cases p with
            | pending =>
              cases hs
              rw [hfl] at wrap
              exact wrap rfl (fun _ => h1 (by rw [hp]; simp)) (by simp)
            | ready x =>
              cases hs
              refine wrap hfl (by simp) fun _ => .inr ⟨x, report r.cb x, rfl, hu ▸ report_says r.cb x, ?_⟩
              simp [h1 (by rw [hp]; simp)]
            | panics => exact absurd (by simp) hnp
          · cases hs
        | abortFlag => exact absurd (hna .abortFlag (by simp)) (by simp [Aborts])
        | abortCall => exact absurd (hna .abortCall (by simp)) (by simp [Aborts])
        | deleteHandle =>
          simp only [step] at hs
          split at hs <;> cases hs
          exact wrap hfl h1 (fun hx => .inl ⟨hx, rfl⟩)
        | deleteRuntime => exact absurd (by simp) hnd
  have h2 := main as r hfl h hu (fun _ => hl) hna hnp hnd
  refine ⟨fun ho => ?_, h2.2⟩
  rcases h2.1 ho with ⟨h3, _⟩ | h3
  · rw [hph] at h3; cases h3
  · exact h3

example : ∃ r', steps c110Req [.deleteHandle, .pollBegin, .pollEnd .pending, .pollBegin, .pollEnd (.ready (.ok 5))] = some r' ∧
    r'.phase = .over ∧ r'.log = [.completion 7 (some 5) none] := ⟨_, rfl, rfl, rfl⟩

/-- An abort that begins while the query is not being worked on is final: from then on the completion function is not called. -/
theorem C110_abort_final (r r1 r' : Req α) (hp : r.phase ≠ .polling) (h1 : step r .abortFlag = some r1) (as : List (Act α))
    (h : steps r1 as = some r') : completions r'.log = completions r.log := by
  simp only [step] at h1
  split at h1 <;> cases h1
  exact (steps_flag h rfl hp).1

/-- And it does not linger: once the flag is set, a request that is waiting ends when it is polled, one that is being polled ends with that
poll, whatever the query does. -/
theorem C110_abort_ends (r r' : Req α) (hf : r.flag = true) (p : Poll α)
    (h : step r .pollBegin = some r' ∨ step r (.pollEnd p) = some r') : r'.phase = .over := by
  rcases h with h | h
  · simp only [step, hf, if_true] at h
    split at h <;> cases h
    rfl
  · simp only [step, hf, if_true] at h
    split at h
    · cases p <;> cases h <;> rfl
    · cases h

example : ∃ r', steps c110Req [.pollBegin, .abortFlag, .pollEnd .pending] = some r' ∧ r'.flag = true ∧ r'.phase = .over := ⟨_, rfl, rfl, rfl⟩

example : ∃ r1 r', step c110Req .abortFlag = some r1 ∧ steps r1 [.pollBegin, .abortCall, .deleteHandle] = some r' ∧ r'.phase = .over ∧
    r'.log = [.abort 7] := ⟨_, _, rfl, rfl, rfl, rfl⟩

/-- Every abort calls the abort function, once, whatever happened before. -/
theorem C110_abort_calls (u : Nat) (r r' : Req α) (hf : Fresh u r) (as : List (Act α)) (h : steps r as = some r') :
    aborts r'.log = as.countP (fun a => match a with | .abortCall => true | _ => false) := by
  obtain ⟨hu, _, _, _, _, hl⟩ := hf
  rw [steps_log h, hl, List.nil_append]
  clear h
  induction as with
  | nil => rfl
  | cons a as ih =>
    unfold aborts at ih ⊢
    cases a with
    | abortCall => simp [ih, show Completes (Ev.abort r.cb.user : Ev α) = false from rfl]
    | pollEnd p =>
      cases p with
      | ready x => simp [ih, says_completes (report_says r.cb x)]
      | _ => simp [ih]
    | _ => simp [ih]

/-- Deleting the handle does not touch the request: it goes on and its callback is called as if nothing had happened. -/
theorem C110_delete_handle (r r' : Req α) (as : List (Act α)) (hna : ∀ a ∈ as, Aborts a = false ∧ a ≠ .deleteHandle)
    (h : steps r as = some r') : steps { r with handle := false } as = some { r' with handle := false } := by
  induction as generalizing r with
  | nil => cases h; rfl
  | cons a as ih =>
    simp only [steps] at h ⊢
    cases hs : step r a with
    | none => simp [hs] at h
    | some r1 =>
      simp only [hs] at h
      have hs' : step { r with handle := false } a = some { r1 with handle := false } := by
        cases a with
        | pollBegin =>
          simp only [step] at hs ⊢
          split at hs <;> cases hs
          rename_i hp
          rw [if_pos hp]
          cases r.flag <;> rfl
        | pollEnd p =>
          simp only [step] at hs ⊢
          split at hs
          · rename_i hp
            rw [if_pos hp]
            cases p with
            | pending => cases hs; cases hf : r.flag <;> simp [hf]
            | ready x => cases hs; rfl
            | panics => cases hs; rfl
          · cases hs
        | abortFlag => exact absurd (hna .abortFlag (by simp)).1 (by simp [Aborts])
        | abortCall => exact absurd (hna .abortCall (by simp)).1 (by simp [Aborts])
        | deleteHandle => exact absurd rfl (hna .deleteHandle (by simp)).2
        | deleteRuntime =>
          simp only [step] at hs ⊢
          split at hs <;> cases hs
          rename_i hp
          rw [if_neg hp]
      rw [hs']
      exact ih r1 (fun b hb => hna b (by simp [hb])) h

example : ∃ r', steps { c110Req with handle := false } [.pollBegin, .pollEnd (.ready (.ok 5))] = some r' ∧
    r'.log = [.completion 7 (some 5) none] := ⟨_, rfl, rfl⟩

/-! ## The closures of the Swift library -/

theorem c110_calls (c : Closure α) (hc : c.retained = 0) (l : List (Ev α)) (d : Closure α) (h : c.calls l = some d) : l = [] := by
  cases l with
  | nil => rfl
  | cons e l => cases e <;> simp [Closure.calls, Closure.call, hc] at h

/-- The Swift library is safe exactly when no more than one of the two functions is called; then the closure is called once with the answer
if there was a completion, and the memory of the closure is given back exactly if there was a call. -/
theorem C110_swift (u : Nat) (r r' : Req α) (hf : Fresh u r) (as : List (Act α)) (h : steps r as = some r') :
    ((Closure.new.calls r'.log).isSome ↔ r'.log.length ≤ 1) ∧
    ∀ c, Closure.new.calls r'.log = some c →
      c.retained = 1 - r'.log.length ∧
      ∀ e, r'.log = [e] → (∀ a, Says u (.ok a) e → c.delivered = [.ok a]) ∧ (∀ x, Says u (.err x) e → c.delivered = [.error x]) := by
  have hans := (C110_completion_answer u r r' hf as h).1
  generalize r'.log = l at hans
  cases l with
  | nil => exact ⟨by simp [Closure.calls], fun c hc => by cases hc; exact ⟨rfl, by simp⟩⟩
  | cons e l =>
    have hone : ∃ c1, Closure.new.call e = some c1 ∧ c1.retained = 0 ∧
        (∀ a, Says u (.ok a) e → c1.delivered = [.ok a]) ∧ (∀ x, Says u (.err x) e → c1.delivered = [.error x]) := by
      rcases hans e (by simp) with rfl | ⟨x, _, hs⟩
      · exact ⟨_, rfl, rfl, fun a ha => (by cases ha), fun a ha => (by cases ha)⟩
      · cases hs
        · exact ⟨_, rfl, rfl, fun a ha => (by cases ha; rfl), fun a ha => (by cases ha)⟩
        · exact ⟨_, rfl, rfl, fun a ha => (by cases ha), fun a ha => (by cases ha; rfl)⟩
        · exact ⟨_, rfl, rfl, fun a ha => (by cases ha), fun a ha => (by cases ha; rfl)⟩
    obtain ⟨c1, h1, h2, h3, h4⟩ := hone
    simp only [Closure.calls, h1]
    constructor
    · constructor
      · intro hx
        obtain ⟨d, hd⟩ := Option.isSome_iff_exists.1 hx
        have := c110_calls c1 h2 l d hd
        simp [this]
      · intro hx
        have : l = [] := by
          cases l with
          | nil => rfl
          | cons y l => simp at hx
        subst this
        rfl
    · intro c hc
      have hl := c110_calls c1 h2 l c hc
      subst hl
      cases hc
      refine ⟨by simp [h2], ?_⟩
      intro e' he'
      cases he'
      exact ⟨h3, h4⟩

example : ∃ r' c, steps c110Req [.pollBegin, .pollEnd (.ready (.ok 5))] = some r' ∧ Closure.new.calls r'.log = some c ∧ c.retained = 0 ∧
    c.delivered = [.ok 5] := ⟨_, _, rfl, rfl, rfl, rfl⟩

/-- One abort, begun before the end and not during a poll, is safe.  Partial: the caller cannot know whether there is a poll, and later or
repeated aborts are not safe (`C110_abort_violates`). -/
theorem C110_abort_safe_partial (u : Nat) (r r1 r2 r' : Req α) (hf : Fresh u r) (as bs : List (Act α)) (h1 : steps r as = some r1)
    (hna : ∀ a ∈ as, Aborts a = false) (hp : r1.phase = .waiting) (h2 : step r1 .abortFlag = some r2) (h3 : steps r2 bs = some r')
    (hb : bs.countP (fun a => match a with | .abortCall => true | _ => false) ≤ 1) :
    (Closure.new.calls r'.log).isSome ∧ completions r'.log = 0 := by
  have hall : steps r (as ++ .abortFlag :: bs) = some r' := by
    rw [steps_append, h1]
    simp only [Option.bind_some, steps, h2, h3]
  have hc : completions r'.log = 0 := by
    rw [C110_abort_final r1 r2 r' (by rw [hp]; simp) h2 bs h3]
    obtain ⟨_, _, _, _, _, hl⟩ := hf
    exact (steps_once h1 (by simp [hl, completions]) (by simp [hl, completions])).2 (by rw [hp]; simp)
  have ha := C110_abort_calls u r r' hf _ hall
  rw [List.countP_append, List.countP_cons_of_neg (by simp)] at ha
  have hz : as.countP (fun a => match a with | .abortCall => true | _ => false) = 0 := by
    rw [List.countP_eq_zero]
    intro a hm
    have := hna a hm
    cases a <;> simp_all [Aborts]
  refine ⟨(C110_swift u r r' hf _ hall).1.2 ?_, hc⟩
  have := completions_le r'.log
  omega

example : (∃ r1 r2 r', steps c110Req [.pollBegin, .pollEnd .pending] = some r1 ∧ r1.phase = .waiting ∧ step r1 .abortFlag = some r2 ∧
    steps r2 [.pollBegin, .abortCall] = some r' ∧ r'.log = [.abort 7]) := ⟨_, _, _, rfl, rfl, rfl, rfl, rfl⟩

/-- An abort after the completion, a second abort, and an abort while the query is being worked on: both functions are called, or one twice,
and the Swift library uses its closure after it was freed.  In the third case the caller has seen no call when it aborts. -/
theorem C110_abort_violates (u : Nat) (r : Req α) (hf : Fresh u r) (x : Answer α) :
    (∃ r', steps r [.pollBegin, .pollEnd (.ready x), .abortFlag, .abortCall] = some r' ∧ r'.log.length = 2 ∧
      (Closure.new.calls r'.log).isSome = false) ∧
    (∃ r', steps r [.abortFlag, .abortCall, .abortFlag, .abortCall] = some r' ∧ r'.log.length = 2 ∧
      (Closure.new.calls r'.log).isSome = false) ∧
    (∃ r1 r', steps r [.pollBegin] = some r1 ∧ r1.log = [] ∧ steps r1 [.abortFlag, .abortCall, .pollEnd (.ready x)] = some r' ∧
      completions r'.log = 1 ∧ aborts r'.log = 1 ∧ (Closure.new.calls r'.log).isSome = false) := by
  obtain ⟨cb, ph, fl, ab, hd, lg⟩ := r
  obtain ⟨rfl, h1, h2, h3, h4, h5⟩ := hf
  dsimp only at h1 h2 h3 h4 h5
  subst h1 h2 h3 h4 h5
  cases x <;> exact ⟨⟨_, rfl, rfl, rfl⟩, ⟨_, rfl, rfl, rfl⟩, ⟨_, _, rfl, rfl, rfl, rfl, rfl, rfl⟩⟩

/-- Requests that end without any call, so that the caller waits for ever and the closure is never given back: the query panics (a header
with a negative vote does that, C108), the runtime is deleted, an argument is refused. -/
theorem C110_silent_violates (u : Nat) (r : Req α) (hf : Fresh u r) :
    (∃ r', steps r [.pollBegin, .pollEnd .panics] = some r' ∧ r'.phase = .over ∧ r'.log = [] ∧
      ∃ c, Closure.new.calls r'.log = some c ∧ c.retained = 1 ∧ c.delivered = []) ∧
    (∃ r', steps r [.deleteRuntime] = some r' ∧ r'.phase = .over ∧ r'.log = []) ∧
    (∀ isUrl cb o, (start isUrl (.info (some 0) none) cb o : Started α) = .err (.invalidArgument "node_conf_ptr")) := by
  obtain ⟨cb, ph, fl, ab, hd, lg⟩ := r
  obtain ⟨rfl, h1, h2, h3, h4, h5⟩ := hf
  dsimp only at h1 h2 h3 h4 h5
  subst h1 h2 h3 h4 h5
  exact ⟨⟨_, rfl, rfl, rfl, _, rfl, rfl, rfl⟩, ⟨_, rfl, rfl, rfl⟩, fun _ _ _ => rfl⟩

/-- When the request is over nothing more comes from it: only aborts of the caller add calls. -/
theorem C110_over (r r' : Req α) (ho : r.phase = .over) (as : List (Act α)) (h : steps r as = some r') :
    r'.phase = .over ∧ completions r'.log = completions r.log := by
  induction as generalizing r with
  | nil => cases h; exact ⟨ho, rfl⟩
  | cons a as ih =>
    simp only [steps] at h
    cases hs : step r a with
    | none => simp [hs] at h
    | some r1 =>
      simp only [hs] at h
      obtain ⟨_, hl, hov, _⟩ := step_cases hs
      have := ih r1 (hov ho) h
      refine ⟨this.1, this.2.trans ?_⟩
      rcases hl with ⟨hl, _⟩ | ⟨x, _, hp, _⟩ | ⟨_, _, hl⟩
      · rw [hl]
      · rw [ho] at hp; cases hp
      · rw [hl, completions_append]; simp [completions, Completes]

example : steps { c110Req with phase := .over } [.pollBegin] = none := rfl

/-- The variable for the handle is not checked: with null the arguments may be good and the call is undefined. -/
theorem C110_handle_violates (isUrl : Text → Bool) (cb : Callback) (a b : Nat) :
    Good isUrl (.info (some a) (some b)) ∧ (start isUrl (.info (some a) (some b)) cb none : Started α) = .ub :=
  ⟨⟨by simp, by simp⟩, rfl⟩

end
end Verif
