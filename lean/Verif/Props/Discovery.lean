import Verif.Proofs.Discovery

set_option linter.unusedSimpArgs false
set_option linter.unusedVariables false

/-!
# C90, C91: the search for peers

Executions start in `init seeds` with the set of the seeds; `cap` is `max_parallel_tasks`.
-/

namespace Verif
open Discovery Spec.Discovery

variable {U : Type} [DecidableEq U]

/-! ## C90: what is found -/

/-- C90: the set of the seeds has each of them once; making it panics exactly if one has no host. -/
theorem C90_seeds (l : List (Seed U)) :
    (seedSet l = .panic ↔ ∃ s ∈ l, s.hasHost = false) ∧
    ∀ r, seedSet l = .ok r → r.Nodup ∧ ∀ u, u ∈ r ↔ ∃ s ∈ l, s.url = u := by
  induction l with
  | nil => exact ⟨by simp [seedSet], by intro r h; cases h; simp⟩
  | cons s l ih =>
    cases hs : s.hasHost with
    | false => simp [seedSet, hs]
    | true =>
      rw [show seedSet (s :: l) = (seedSet l >>= fun r => pure (if s.url ∈ r then r else s.url :: r)) by simp [seedSet, hs]]
      cases hl : seedSet l with
      | panic =>
        refine ⟨?_, fun r h => by cases h⟩
        have := ih.1.1 hl
        simp only [List.mem_cons, exists_eq_or_imp, hs, Bool.true_eq_false, false_or]
        exact ⟨fun _ => this, fun _ => rfl⟩
      | err =>
        exfalso
        clear ih hs s
        induction l with
        | nil => cases hl
        | cons s l ih =>
          cases hs : s.hasHost with
          | false => simp [seedSet, hs] at hl
          | true =>
            rw [show seedSet (s :: l) = (seedSet l >>= fun r => pure (if s.url ∈ r then r else s.url :: r)) by
              simp [seedSet, hs]] at hl
            cases h : seedSet l with
            | ok r => rw [h] at hl; cases hl
            | err => exact ih h
            | panic => rw [h] at hl; cases hl
      | ok r =>
        obtain ⟨h1, h2⟩ := ih.2 r hl
        constructor
        · simp only [Outcome.bind_ok, List.mem_cons, exists_eq_or_imp, hs, Bool.true_eq_false, false_or]
          constructor
          · intro h; cases h
          · intro h; rw [ih.1.2 h] at hl; cases hl
        · intro r' h
          simp only [Outcome.bind_ok] at h
          cases h
          constructor
          · split
            · exact h1
            · exact List.nodup_cons.2 ⟨by assumption, h1⟩
          · intro u
            simp only [List.mem_cons, exists_eq_or_imp]
            rw [← h2]
            split
            · rename_i hin
              constructor
              · exact Or.inr
              · rintro (rfl | h)
                · exact hin
                · exact h
            · rw [List.mem_cons, eq_comm]

/-- C90: when the search ends without a timeout, in a network that keeps giving the same answers, it has found exactly the active nodes
that can be reached from the seeds over active nodes, without the seeds. -/
theorem C90_complete (cap : Nat) (hcap : 1 ≤ cap) (seeds : List U) (hne : seeds ≠ []) (net : U → Option (List U)) (tr : List (Ev U))
    (s : St U) (h : Run cap (init seeds) tr s) (hd : s.main = .done) (hn : Follows net tr) (ht : Ev.timeout ∉ tr) (u : U) :
    u ∈ result seeds s ↔ u ∉ seeds ∧ Reach net seeds u ∧ net u ≠ none := by
  have hc := content cap hcap seeds hne h
  have he := atEnd hcap hne h hd
  have hans : ∀ v, v ∈ asked tr → Ev.answer v (net v) ∈ tr := by
    intro v hv
    obtain ⟨r, hr⟩ := mem_answered.1 ((he.answered v).1 hv)
    rw [← hn v r hr]; exact hr
  have hreach : ∀ v, Reach net seeds v → v ∈ asked tr := by
    intro v hv
    induction hv with
    | seed hv => exact (he.asked _).2 (Or.inl hv)
    | @peer w p ps _ hw hp ih =>
      have hw' := hans w ih
      rw [hw] at hw'
      rcases hc.peers2 w ps hw' with h | h
      · rw [he.held] at h; cases h
      · rcases h (hc.time2.2 ht) p hp with h | h
        · rw [he.stack] at h; cases h
        · rcases hc.vis p h with h | h
          · exact h
          · rw [he.urls] at h; cases h
  unfold result
  simp only [List.mem_filter, decide_eq_true_eq]
  constructor
  · rintro ⟨h1, h2⟩
    obtain ⟨ps, hps⟩ := hc.act1 u (Or.inl h1)
    refine ⟨h2, ?_, ?_⟩
    · have ha : u ∈ asked tr := (he.answered u).2 (mem_answered.2 ⟨_, hps⟩)
      refine reach_of_queued hcap hne net h hn u ?_
      exact (flow cap seeds h).enq.mem_iff.2 (List.mem_append_left _ ha)
    · rw [← hn u _ hps]; simp
  · rintro ⟨h1, h2, h3⟩
    have ha := hans u (hreach u h2)
    obtain ⟨ps, hps⟩ := Option.ne_none_iff_exists'.1 h3
    rw [hps] at ha
    rcases hc.act2 u ps ha with h | h
    · exact ⟨h, h1⟩
    · rw [he.held] at h; cases h

/-- C90: with or without a timeout, whatever the nodes answer: at the end every node that was asked has answered, the result has each
node once that answered and is not a seed, and these can be reached. -/
theorem C90_result (cap : Nat) (hcap : 1 ≤ cap) (seeds : List U) (hne : seeds ≠ []) (tr : List (Ev U))
    (s : St U) (h : Run cap (init seeds) tr s) (hd : s.main = .done) :
    (result seeds s).Nodup ∧ (∀ u, u ∈ result seeds s ↔ u ∉ seeds ∧ ∃ ps, Ev.answer u (some ps) ∈ tr) ∧
    (∀ u ∈ seeds, u ∈ asked tr) ∧ (∀ u ∈ asked tr, ∃ r, Ev.answer u r ∈ tr) ∧
    ∀ net, Follows net tr → ∀ u ∈ result seeds s, Reach net seeds u := by
  have hc := content cap hcap seeds hne h
  have he := atEnd hcap hne h hd
  have hres : ∀ u, u ∈ result seeds s ↔ u ∉ seeds ∧ ∃ ps, Ev.answer u (some ps) ∈ tr := by
    intro u
    unfold result
    simp only [List.mem_filter, decide_eq_true_eq]
    constructor
    · rintro ⟨h1, h2⟩; exact ⟨h2, hc.act1 u (Or.inl h1)⟩
    · rintro ⟨h1, ps, h2⟩
      rcases hc.act2 u ps h2 with h | h
      · exact ⟨h, h1⟩
      · rw [he.held] at h; cases h
  refine ⟨hc.nodup.filter _, hres, fun u hu => (he.asked u).2 (Or.inl hu), ?_, ?_⟩
  · intro u hu; exact mem_answered.1 ((he.answered u).1 hu)
  · intro net hn u hu
    obtain ⟨_, ps, hps⟩ := (hres u).1 hu
    have ha : u ∈ asked tr := (he.answered u).2 (mem_answered.2 ⟨_, hps⟩)
    exact reach_of_queued hcap hne net h hn u ((flow cap seeds h).enq.mem_iff.2 (List.mem_append_left _ ha))

/-- C90 (partial): no node is asked more than once, a seed at most twice.  Missing for the full claim: once for seeds, which fails
(`C90_twice_violates`). -/
theorem C90_once_partial (cap : Nat) (hcap : 1 ≤ cap) (seeds : List U) (hne : seeds ≠ []) (hnd : seeds.Nodup) (tr : List (Ev U))
    (s : St U) (h : Run cap (init seeds) tr s) (u : U) : (asked tr).count u ≤ if u ∈ seeds then 2 else 1 := by
  have hf := flow cap seeds h
  have hc := content cap hcap seeds hne h
  have h1 := hf.enq.count_eq u
  rw [List.count_append, List.count_append] at h1
  have h2 : (pushes tr).count u ≤ 1 := List.nodup_iff_count_le_one.1 hc.pushNodup u
  have h3 : (seeded tr).count u ≤ seeds.count u := by
    rw [← hf.sent, List.count_append]; omega
  split
  · have : seeds.count u ≤ 1 := List.nodup_iff_count_le_one.1 hnd u
    omega
  · rename_i hu
    rw [List.count_eq_zero_of_not_mem hu] at h3
    omega

/-- C90, violation: although any node is said to be queried exactly once, a seed that is also reported as a peer, be it by itself,
is asked twice; with any capacity and any seed. -/
theorem C90_twice_violates (cap : Nat) (hcap : 1 ≤ cap) (a : U) :
    ∃ tr s, Run cap (init [a]) tr s ∧ s.main = .done ∧ (asked tr).count a = 2 := by
  have e1 : 0 < cap := hcap
  refine ⟨[.seed a, .sent, .ask a, .answer a (some [a]), .post, .recv, .drained, .handle, .post, .recv, .push a, .drained, .handle,
    .ask a, .answer a none, .post, .recv, .drained, .handle], ?_⟩
  have h := @execAll_sound U _ cap [.seed a, .sent, .ask a, .answer a (some [a]), .post, .recv, .drained, .handle, .post, .recv,
    .push a, .drained, .handle, .ask a, .answer a none, .post, .recv, .drained, .handle] (init [a])
    ⟨.done, 0, [a], [a], [], true, [], [], [], []⟩
    (by simp [execAll, exec, init, e1, replies, ins])
  exact ⟨_, h, rfl, by simp [asked]⟩

/-- C90: the counter does not go below zero. -/
theorem C90_no_panic (cap : Nat) (hcap : 1 ≤ cap) (seeds : List U) (hne : seeds ≠ []) (tr : List (Ev U))
    (s : St U) (h : Run cap (init seeds) tr s) : s.main ≠ .panicked := (count_inv cap hcap seeds hne h).np

/-! ## C91: the end of the search -/

/-- C91 (partial): as long as the search has not ended and no task has died, some step other than the timeout is possible, with any
answers of the nodes.  So it is not stuck.  Missing for the full claim: tasks that die (`C91_dead_violates`). -/
theorem C91_progress_partial (cap : Nat) (hcap : 1 ≤ cap) (seeds : List U) (hne : seeds ≠ []) (net : U → Option (List U))
    (tr : List (Ev U)) (s : St U) (h : Run cap (init seeds) tr s) (hdie : ∀ u, Ev.die u ∉ tr) (hd : s.main ≠ .done) :
    ∃ e s', Step cap s e s' ∧ e ≠ .timeout ∧ (∀ u, e ≠ .die u) ∧ ∀ u r, e = .answer u r → r = net u := by
  refine progress hcap hne net h ?_ hd
  unfold died
  rw [List.filterMap_eq_nil_iff]
  intro e he
  cases e <;> simp
  exact hdie _ he

/-- C91: if the nodes name finitely many others, `W`, at most `K` each, an execution has a bounded number of steps; so it ends, with
`C91_progress_partial`. -/
theorem C91_bounded (cap : Nat) (hcap : 1 ≤ cap) (seeds : List U) (hne : seeds ≠ []) (W : List U) (K : Nat) (tr : List (Ev U))
    (s : St U) (h : Run cap (init seeds) tr s) (hW : ∀ u ps, Ev.answer u (some ps) ∈ tr → ps.length ≤ K ∧ ∀ p ∈ ps, p ∈ W) :
    tr.length ≤ 11 * seeds.length + 10 * W.length + K * (seeds.length + W.length) + 2 := by
  have hp := pot_run h
  have hg := gain_sum K tr fun u ps hu => (hW u ps hu).1
  have ht := timeouts h
  have hf := flow cap seeds h
  have hc := content cap hcap seeds hne h
  have h0 : pot 1 (init seeds) = 11 * seeds.length + 1 := by simp [pot, init, wMain]
  have hpush : (pushes tr).length ≤ W.length := by
    refine (List.subperm_of_subset hc.pushNodup ?_).length_le
    intro p hp
    obtain ⟨u, ps, h1, h2⟩ := hc.peers1 p (Or.inl hp)
    exact (hW u ps h1).2 p h2
  have hseed : (seeded tr).length ≤ seeds.length := by
    have := congrArg List.length hf.sent
    rw [List.length_append] at this
    omega
  have h1 := hf.enq.length_eq
  have h2 := hf.task.length_eq
  simp only [List.length_append] at h1 h2
  have h3 : (answered tr).length ≤ seeds.length + W.length := by omega
  have h4 := Nat.mul_le_mul_left K h3
  omega

/-- C91 (partial): after the timeout no further peers are put in the queue, only URLs that are already in the channel are still asked,
and there are at most ten steps for each request that is counted.  Missing for the full claim: that the search ends with the timeout
(`C91_late_violates`). -/
theorem C91_timeout_partial (cap : Nat) (hcap : 1 ≤ cap) (seeds : List U) (hne : seeds ≠ []) (tr tr' : List (Ev U)) (s s' : St U)
    (h : Run cap (init seeds) tr s) (ht : Ev.timeout ∈ tr) (h' : Run cap s tr' s') :
    (∀ u, Ev.push u ∉ tr') ∧ asked tr' <+: s.urls ∧ (asked tr').length ≤ cap ∧ tr'.length ≤ 10 * s.count := by
  obtain ⟨h1, h2, h3⟩ := late hcap hne h ht h'
  have h4 := pot_le hcap hne h ht
  have h5 := (flow cap seeds h).capU
  refine ⟨?_, ⟨_, h3⟩, ?_, by omega⟩
  · intro u hu
    have : u ∈ pushes tr' := List.mem_filterMap.2 ⟨_, hu, rfl⟩
    rw [h1] at this
    cases this
  · have := congrArg List.length h3
    rw [List.length_append] at this
    omega

/-- C91, violation: after the timeout as many nodes can still be asked as the channel holds, though the search is said to return with
what it has. -/
theorem C91_late_violates (a : U) (l : List U) (hl : l.Nodup) (ha : a ∉ l) (hne : l ≠ []) :
    ∃ tr tr' s s', Run l.length (init [a]) tr s ∧ Ev.timeout ∈ tr ∧ Run l.length s tr' s' ∧ asked tr' = l := by
  have hcap : 0 < l.length := List.length_pos_of_ne_nil hne
  have r1 := @execAll_sound U _ l.length [.seed a, .sent, .ask a, .answer a (some l), .post, .recv, .drained, .handle, .post, .recv]
    (init [a]) ⟨.draining (.active a), 1, [], [], l, true, [], [], [], []⟩
    (by simp [execAll, exec, init, hcap, replies])
  have key : ∀ (q done vis : List U) (c : Nat), q.Nodup → (∀ u ∈ q, u ∉ vis) → done.length + q.length ≤ l.length →
      ∃ tr vis', Run l.length ⟨.draining (.active a), c, [], vis, q, true, done, [], [], []⟩ tr
        ⟨.draining (.active a), c + q.length, [], vis', [], true, done ++ q, [], [], []⟩ := by
    intro q
    induction q with
    | nil => intro done vis c _ _ _; exact ⟨[], vis, by simpa using Run.nil⟩
    | cons u q ih =>
      intro done vis c h1 h2 h3
      rw [List.nodup_cons] at h1
      rw [List.length_cons] at h3
      obtain ⟨tr, vis', hr⟩ := ih (done ++ [u]) (ins u vis) (c + 1) h1.2
        (by
          intro v hv
          rw [mem_ins, not_or]
          exact ⟨fun e => h1.1 (e ▸ hv), h2 v (List.mem_cons_of_mem _ hv)⟩)
        (by simp; omega)
      refine ⟨.push u :: tr, vis', .cons (s' := ⟨.draining (.active a), c + 1, [], ins u vis, q, true, done ++ [u], [], [], []⟩) ?_ ?_⟩
      · exact Step.push (cap := l.length) (s := ⟨.draining (.active a), c, [], vis, u :: q, true, done, [], [], []⟩) rfl rfl
          (h2 u (List.mem_cons_self ..)) (by show done.length < _; omega)
      · have e1 : c + (u :: q).length = c + 1 + q.length := by simp; omega
        have e2 : done ++ u :: q = done ++ [u] ++ q := by simp
        rw [e1, e2]
        exact hr
  obtain ⟨tr2, vis, r2⟩ := key l [] [] 1 hl (by simp) (by simp)
  have r3 : Run l.length ⟨.draining (.active a), 1 + l.length, [], vis, [], true, [] ++ l, [], [], []⟩ [.drained, .handle, .timeout]
      ⟨.waiting, l.length, [a], ins a vis, [], false, l, [], [], []⟩ := by
    refine execAll_sound ?_
    have : l.length ≠ 0 := by omega
    simp [execAll, exec, ins, this]
  have asks : ∀ (q tasks : List U) (s : St U), s.urls = q → s.tasks = tasks → ∃ tr s', Run l.length s tr s' ∧ asked tr = q := by
    intro q
    induction q with
    | nil => intro tasks s _ _; exact ⟨[], s, .nil, rfl⟩
    | cons u q ih =>
      intro tasks s h1 h2
      obtain ⟨tr, s', hr, hask⟩ := ih _ { s with urls := q, tasks := u :: s.tasks } rfl rfl
      exact ⟨.ask u :: tr, s', .cons (.ask h1) hr, by simp [asked] at hask ⊢; exact hask⟩
  obtain ⟨tr4, s', r4, hask⟩ := asks l [] ⟨.waiting, l.length, [a], ins a vis, [], false, l, [], [], []⟩ rfl rfl
  exact ⟨_, tr4, _, s', (r1.append r2).append r3, by simp, r4, hask⟩

/-- C91, violation: the limit on parallel tasks has no effect.  Whatever it is, there is an execution in which a task for every seed,
with its request started and not answered, is under way at the same time. -/
theorem C91_parallel_violates (cap : Nat) (hcap : 1 ≤ cap) (seeds : List U) :
    ∃ tr s, Run cap (init seeds) tr s ∧ outstanding tr = seeds.length := by
  have key : ∀ (q tasks : List U) (s : St U), s.main = .seeding q → s.urls = [] →
      ∃ tr s', Run cap s tr s' ∧ asked tr = q ∧ ∀ e ∈ tr, (∃ u, e = .seed u) ∨ ∃ u, e = .ask u := by
    intro q
    induction q with
    | nil => intro tasks s _ _; exact ⟨[], s, .nil, rfl, by simp⟩
    | cons u q ih =>
      intro tasks s h1 h2
      obtain ⟨tr, s', hr, hask, hev⟩ := ih tasks { s with main := .seeding q, urls := [], tasks := u :: s.tasks } rfl rfl
      refine ⟨.seed u :: .ask u :: tr, s', .cons (.seed h1 (by rw [h2]; simp; omega)) (.cons (.ask (by simp [h2]; rfl)) ?_), ?_, ?_⟩
      · simpa [h2] using hr
      · simp [asked] at hask ⊢; exact hask
      · intro e he
        simp only [List.mem_cons] at he
        rcases he with rfl | rfl | he
        · exact Or.inl ⟨u, rfl⟩
        · exact Or.inr ⟨u, rfl⟩
        · exact hev e he
  obtain ⟨tr, s, hr, hask, hev⟩ := key seeds [] (init seeds) rfl rfl
  refine ⟨tr, s, hr, ?_⟩
  unfold outstanding
  rw [hask]
  rw [List.filter_eq_nil_iff.2]
  · simp
  · intro e he
    rcases hev e he with ⟨u, rfl⟩ | ⟨u, rfl⟩ <;> simp

/-- C91, violation: if the task for a seed whose host cannot be resolved panics, the search never ends, and there is an execution that
is stuck even after the timeout. -/
theorem C91_dead_violates (cap : Nat) (hcap : 1 ≤ cap) :
    (∀ (seeds : List U), seeds ≠ [] → ∀ tr s u, Run cap (init seeds) tr s → Ev.die u ∈ tr → s.main ≠ .done) ∧
    ∀ a : U, ∃ tr s, Run cap (init [a]) tr s ∧ Ev.timeout ∈ tr ∧ s.main = .waiting ∧ ∀ e s', ¬ Step cap s e s' := by
  constructor
  · intro seeds hne tr s u h hu hd
    have := (atEnd hcap hne h hd).died
    have hm : u ∈ died tr := List.mem_filterMap.2 ⟨_, hu, rfl⟩
    rw [this] at hm
    cases hm
  · intro a
    have e1 : 0 < cap := hcap
    refine ⟨[.seed a, .sent, .ask a, .die a, .timeout], ⟨.waiting, 1, [], [], [], false, [], [], [], []⟩, execAll_sound ?_, by simp,
      rfl, ?_⟩
    · simp [execAll, exec, init, e1]
    · intro e s' hs
      cases hs <;> simp_all

/-! ## Cases -/

/-- A network: 1 knows 2 and 3, 2 knows 1 and 4, 4 knows nobody, 3 does not answer. -/
def smallNet : Nat → Option (List Nat)
  | 1 => some [2, 3]
  | 2 => some [1, 4]
  | 4 => some []
  | _ => none

/-- A search in it from 1 with channels of one place; 2 and 4 are found. -/
def smallSearch : List (Ev Nat) :=
  [.seed 1, .sent, .ask 1, .answer 1 (some [2, 3]), .post, .recv, .drained, .handle, .post, .recv, .push 2, .drained, .handle,
    .ask 2, .answer 2 (some [1, 4]), .post, .recv, .push 3, .drained, .handle, .post, .recv, .skip 1, .drained, .handle,
    .ask 3, .answer 3 none, .post, .recv, .push 4, .drained, .handle, .ask 4, .answer 4 (some []), .post, .recv, .drained, .handle,
    .post, .recv, .drained, .handle]

example : ∃ s, Run 1 (init [1]) smallSearch s ∧ s.main = .done ∧ Follows smallNet smallSearch ∧ Ev.timeout ∉ smallSearch ∧
    (∀ u, Ev.die u ∉ smallSearch) ∧ result [1] s = [4, 2] ∧ asked smallSearch = [1, 2, 3, 4] ∧
    ∀ u ps, Ev.answer u (some ps) ∈ smallSearch → ps.length ≤ 2 ∧ ∀ p ∈ ps, p ∈ [1, 2, 3, 4] := by
  have h : ∃ s, execAll 1 (init [1]) smallSearch = some s ∧ s.main = .done ∧ result [1] s = [4, 2] := by
    refine ⟨_, rfl, rfl, rfl⟩
  obtain ⟨s, h1, h2, h3⟩ := h
  refine ⟨s, execAll_sound h1, h2, ?_, by decide, by simp [smallSearch], h3, by decide, ?_⟩
  · intro u r hu
    simp [smallSearch] at hu
    rcases hu with ⟨rfl, rfl⟩ | ⟨rfl, rfl⟩ | ⟨rfl, rfl⟩ | ⟨rfl, rfl⟩ <;> rfl
  · intro u ps hu
    simp [smallSearch] at hu
    rcases hu with ⟨rfl, rfl⟩ | ⟨rfl, rfl⟩ | ⟨rfl, rfl⟩ <;> decide

/-- The beginning of it with a timeout: 2 is still asked, 3 and 4 are not. -/
example : ∃ s s', Run 1 (init [1]) (smallSearch.take 13 ++ [.timeout]) s ∧ s.urls = [2] ∧ s.stack = [] ∧ s.count = 1 ∧
    Run 1 s [.ask 2, .answer 2 (some [1, 4]), .post, .recv, .drained, .handle, .post, .recv, .drained, .handle] s' ∧ s'.main = .done ∧
    result [1] s' = [2] := by
  have h : ∃ s s', execAll 1 (init [1]) (smallSearch.take 13 ++ [.timeout]) = some s ∧ s.urls = [2] ∧ s.stack = [] ∧ s.count = 1 ∧
    execAll 1 s [.ask 2, .answer 2 (some [1, 4]), .post, .recv, .drained, .handle, .post, .recv, .drained, .handle] = some s' ∧
    s'.main = .done ∧ result [1] s' = [2] := ⟨_, _, rfl, rfl, rfl, rfl, rfl, rfl, rfl⟩
  obtain ⟨s, s', h1, h2, h3, h4, h5, h6, h7⟩ := h
  exact ⟨s, s', execAll_sound h1, h2, h3, h4, execAll_sound h5, h6, h7⟩

example : seedSet [⟨1, true⟩, ⟨2, true⟩, ⟨1, true⟩] = .ok [2, 1] ∧ seedSet [⟨1, true⟩, ⟨2, false⟩] = .panic := by decide

example : [2, 3, 4].Nodup ∧ 1 ∉ [2, 3, 4] := by decide

end Verif
