import Verif.Proofs.ChromeTime

set_option linter.unusedSimpArgs false
set_option linter.unusedVariables false

/-!
# C95, C96: the search for peers with Chrome

Executions start in `init seeds` with the set of the seeds and can have several calls; `cap` is the length of the channel of requests.
-/

namespace Verif
open Chrome Spec.Chrome
open Spec.Discovery (Reach)
open Discovery (ins mem_ins)

variable {U : Type} [DecidableEq U]

/-- An execution for the examples: the seeds 0 and 1; 0 names 2, 3 and 1; 2 is active, 1 and 3 are not. -/
def sampleScan : List (Ev Nat) :=
  [.call 6 (.info 0), .ask (.info 0), .answer (.info 0) (.ok []), .post (.infoOk 0), .recv (.infoOk 0), .push (.info 1), .drained,
   .handle (.infoOk 0), .ask (.info 1), .answer (.info 1) .abort, .post (.infoTimeout 1), .recv (.infoTimeout 1), .push (.all 0), .drained,
   .handle (.infoTimeout 1), .ask (.all 0), .answer (.all 0) (.ok [2, 3, 1]), .post (.peers [2, 3, 1]), .post (.active 0),
   .recv (.peers [2, 3, 1]), .drained, .handle (.peers [2, 3, 1]), .recv (.active 0), .push (.info 2), .drained, .handle (.active 0),
   .ask (.info 2), .answer (.info 2) (.ok []), .post (.infoOk 2), .recv (.infoOk 2), .skip 1, .push (.info 3), .drained,
   .handle (.infoOk 2), .ask (.info 3), .answer (.info 3) .network, .post (.infoFail 3), .recv (.infoFail 3), .push (.all 2), .drained,
   .handle (.infoFail 3), .ask (.all 2), .answer (.all 2) (.ok []), .post (.peers []), .post (.active 2), .recv (.peers []), .drained,
   .handle (.peers []), .recv (.active 2), .drained, .handle (.active 2), .finish]

/-- The state at its end. -/
def sampleScanEnd : St Nat := ⟨.idle, 6, 0, 0, [2], [3, 2, 0, 1], [0, 1], [], [], true, [], [], [], []⟩

theorem sampleScan_run : Run 51 (init [0, 1]) sampleScan sampleScanEnd := execAll_sound rfl

/-! ## C95: what is found -/

/-- C95: between calls, whatever the nodes answered and whether or not there were timeouts: every request that was made has an answer,
and the active peers are, each once, those that gave their peers and are not seeds; they can be reached from the seeds. -/
theorem C95_result (cap : Nat) (seeds : List U) (tr : List (Ev U)) (s : St U) (h : Run cap (init seeds) tr s) (hi : s.main = .idle) :
    s.active.Nodup ∧ (∀ u, u ∈ s.active ↔ u ∉ seeds ∧ ∃ ps, Ev.answer (.all u) (.ok ps) ∈ tr) ∧
    (∀ r ∈ asked tr, ∃ a, Ev.answer r a ∈ tr) ∧ ∀ net, Follows net tr → ∀ u ∈ s.active, Reach net seeds u ∧ net u ≠ none := by
  have hc := content h
  obtain ⟨q1, q2, q3, q4, q5, q6⟩ := atIdle h hi
  have hdie : ∀ r, Ev.die r ∉ tr := by
    intro r hr
    have : 0 < lost tr := List.countP_pos_iff.2 ⟨_, hr, rfl⟩
    omega
  refine ⟨hc.nodup, ?_, ?_, ?_⟩
  · intro u
    constructor
    · exact fun hu => ⟨(hc.idleLate hi).2 u hu, hc.msgActive u (Or.inr hu)⟩
    · rintro ⟨h1, ps, h2⟩
      rcases hc.fwdActive u ps h2 with h | h | h
      · rw [q6] at h; cases h
      · exact h
      · exact absurd h h1
  · intro r hr
    rcases hc.ask1 r hr with h | h | h
    · rw [q2] at h; cases h
    · exact h
    · exact absurd h (hdie r)
  · intro net hn u hu
    obtain ⟨ps, hps⟩ := hc.msgActive u (Or.inr hu)
    constructor
    · exact reach_of_where h hn (.info u) (Or.inr (Or.inr (Or.inr (info_of_all h (hc.ans1 _ _ hps)))))
    · intro h0
      have := hn.2 u _ hps
      rw [h0] at this
      exact this ps rfl

example : (∀ u, u ∈ sampleScanEnd.active ↔ u ∉ [0, 1] ∧ ∃ ps, Ev.answer (.all u) (.ok ps) ∈ sampleScan) :=
  (C95_result 51 [0, 1] sampleScan sampleScanEnd sampleScan_run rfl).2.1

/-- C95: if nothing is left to do, after any number of calls and timeouts, in a network that keeps giving the same answers, the active
peers are exactly the active nodes that can be reached from the seeds over active nodes, without the seeds. -/
theorem C95_complete (cap : Nat) (seeds : List U) (net : U → Option (List U)) (tr : List (Ev U)) (s : St U)
    (h : Run cap (init seeds) tr s) (hi : s.main = .idle) (hp : s.pending = []) (hn : Follows net tr) (u : U) :
    u ∈ s.active ↔ u ∉ seeds ∧ Reach net seeds u ∧ net u ≠ none := by
  have hc := content h
  obtain ⟨q1, q2, q3, q4, q5, q6⟩ := atIdle h hi
  obtain ⟨_, r2, r3, r4⟩ := C95_result cap seeds tr s h hi
  have hw : ∀ r, Where tr s r → r ∈ asked tr := by
    rintro r (hr | hr | hr | hr)
    · rw [hp] at hr; cases hr
    · rw [(hc.idleLate hi).1] at hr; cases hr
    · rw [q1] at hr; cases hr
    · exact hr
  have hall : ∀ v ps, Req.info v ∈ asked tr → net v = some ps → Ev.answer (.all v) (.ok ps) ∈ tr := by
    intro v ps hv hnet
    obtain ⟨a, ha⟩ := r3 _ hv
    obtain ⟨qs, rfl⟩ := hn.1 v a ha (by simp [hnet])
    rcases hc.fwdInfo v qs ha with h | h
    · rw [q6] at h; cases h
    · obtain ⟨b, hb⟩ := r3 _ (hw _ h)
      have := hn.2 v b hb
      rw [hnet] at this
      rw [← show b = .ok ps from this]
      exact hb
  have hreach : ∀ v, Reach net seeds v → Req.info v ∈ asked tr := by
    intro v hv
    induction hv with
    | seed hv => exact hw _ (hc.seedKnown _ hv)
    | @peer w p ps _ hnet hp ih =>
      rcases hc.fwdPeers w ps (hall w ps ih hnet) with h | h
      · rw [q6] at h; cases h
      · exact hw _ (h p hp)
  constructor
  · intro hu
    exact ⟨((r2 u).1 hu).1, r4 net hn u hu⟩
  · rintro ⟨h1, h2, h3⟩
    obtain ⟨ps, hps⟩ := Option.ne_none_iff_exists'.1 h3
    exact (r2 u).2 ⟨h1, ps, hall u ps (hreach u h2) hps⟩

/-- The network of the example. -/
def sampleNet : Nat → Option (List Nat) | 0 => some [2, 3, 1] | 2 => some [] | _ => none

theorem sampleScan_follows : Follows sampleNet sampleScan := by
  constructor
  · intro u a h hu
    simp [sampleScan] at h
    rcases h with ⟨rfl, rfl⟩ | ⟨rfl, rfl⟩ | ⟨rfl, rfl⟩ | ⟨rfl, rfl⟩
    · exact ⟨_, rfl⟩
    · exact absurd rfl hu
    · exact ⟨_, rfl⟩
    · exact absurd rfl hu
  · intro u a h
    simp [sampleScan] at h
    rcases h with ⟨rfl, rfl⟩ | ⟨rfl, rfl⟩ <;> rfl

example (u : Nat) : u ∈ [2] ↔ u ∉ [0, 1] ∧ Reach sampleNet [0, 1] u ∧ sampleNet u ≠ none :=
  C95_complete 51 [0, 1] sampleNet sampleScan sampleScanEnd sampleScan_run rfl rfl sampleScan_follows u

/-- C95: a call that ends without a timeout, be it the first or a later one, leaves nothing to do. -/
theorem C95_whole (cap : Nat) (seeds : List U) (tr₁ tr₂ : List (Ev U)) (n : Nat) (r : Req U) (s : St U)
    (h : Run cap (init seeds) (tr₁ ++ .call n r :: tr₂) s) (hf : Ev.finish ∈ tr₂) (ht : Ev.timeout ∉ tr₂) :
    s.main = .idle ∧ s.pending = [] := by
  obtain ⟨t, h1, h2⟩ := run_split h
  obtain ⟨q, h3, h4⟩ := run_cons h2
  have h5 := h1.snoc h3
  cases h3 with
  | call g1 g2 => exact (untimed h5 rfl rfl h4 ht).2.2 hf

example : sampleScanEnd.main = .idle ∧ sampleScanEnd.pending = [] :=
  C95_whole 51 [0, 1] [] sampleScan.tail 6 (.info 0) sampleScanEnd sampleScan_run (by simp [sampleScan]) (by simp [sampleScan])

/-- C95: since the last call, requests under way (each with its preflight) and the preflights that Chrome is assumed to hold on to are
together at most the limit of that call, or two. -/
theorem C95_throttle (cap : Nat) (seeds : List U) (tr₁ tr₂ : List (Ev U)) (n : Nat) (r : Req U) (s : St U)
    (h : Run cap (init seeds) (tr₁ ++ .call n r :: tr₂) s) (hc : ∀ n r, Ev.call n r ∉ tr₂) (hf : Ev.finish ∉ tr₂) :
    2 * outstanding (tr₁ ++ .call n r :: tr₂) + preflights tr₂ ≤ max 2 n := by
  obtain ⟨h1, _, h3⟩ := since_call h (by simp [held, current, init]) (fun tr s h hi => ((nums h).idle hi).2) tr₁ n r tr₂ rfl hc hf
  have hn := nums h
  have hb := hn.bound
  have hch := hn.chrome
  rw [h1] at hb
  rw [outstanding_tasks h, preflights_eq, h3]
  have h4 := nPre_costs s.outs.flatten
  have h5 : costs (held s) = costs (current s ++ s.msgs) + costs s.outs.flatten := by rw [held, costs_append]
  omega

example : 2 * outstanding ([] ++ .call 6 (.info 0) :: (sampleScan.tail.take 15)) + preflights (sampleScan.tail.take 15) = 3 := by decide

example : ∃ s, Run 51 (init [0, 1]) ([] ++ .call 6 (.info 0) :: sampleScan.tail.take 15) s :=
  ⟨_, execAll_sound rfl⟩

/-- C95: `chrome_request_count` does not go below zero. -/
theorem C95_no_panic (cap : Nat) (seeds : List U) (tr : List (Ev U)) (s : St U) (h : Run cap (init seeds) tr s) :
    s.main ≠ .panicked := (nums h).np

example : sampleScanEnd.main ≠ .panicked := C95_no_panic 51 [0, 1] sampleScan _ sampleScan_run

/-- C95: the time for the search is the one given without 80 seconds; it is refused exactly below 90 seconds. -/
theorem C95_time (t : Nat) : (searchTime t = .err ↔ t < 90 * 10 ^ 9) ∧ ∀ d, searchTime t = .ok d ↔ 90 * 10 ^ 9 ≤ t ∧ t = d + 80 * 10 ^ 9 := by
  unfold searchTime
  constructor
  · split
    · simp; omega
    · split
      · simp; omega
      · exfalso; omega
  · intro d
    split
    · simp; omega
    · split
      · simp; omega
      · exfalso; omega

example : searchTime (100 * 10 ^ 9) = .ok (20 * 10 ^ 9) := ((C95_time _).2 _).2 ⟨by omega, by omega⟩

/-- C95: in the first call of a scan no node is asked twice for its information. -/
theorem C95_once_first (cap : Nat) (seeds : List U) (hnd : seeds.Nodup) (tr : List (Ev U)) (s : St U) (h : Run cap (init seeds) tr s)
    (hc : (calls tr).length ≤ 1) (u : U) : (asked tr).count (.info u) ≤ 1 := by
  have hf := flow h
  have h1 := hf.enq (.info u)
  have h2 := hf.split (.info u)
  have h3 := hf.once u
  rcases hq : calls tr with _ | ⟨r, l⟩
  · rw [hq, List.count_nil] at h2; omega
  · rw [hq] at hc
    have hl : l = [] := by simpa using hc
    subst hl
    cases r with
    | all v => exact absurd (by rw [hq]; exact List.mem_singleton_self _) (hf.callInfo v)
    | info v =>
      by_cases hv : v = u
      · subst hv
        have := List.count_eq_zero_of_not_mem (first_once hnd h hq).1
        have : (calls tr).count (.info v) ≤ 1 := by rw [hq]; exact List.count_le_length
        omega
      · have : (calls tr).count (.info u) = 0 := by
          rw [hq]; exact List.count_eq_zero_of_not_mem (by simp; exact fun e => hv e.symm)
        omega

example (u : Nat) : (asked sampleScan).count (.info u) ≤ 1 :=
  C95_once_first 51 [0, 1] (by decide) sampleScan _ sampleScan_run (by decide) u

/-- C95 (partial): over all calls a node is asked for its information at most once, and again only as the first request of a call.
Missing for the full claim (visited nodes are not asked again): first requests, for which it fails (`C95_again_violates`). -/
theorem C95_once_partial (cap : Nat) (seeds : List U) (tr : List (Ev U)) (s : St U) (h : Run cap (init seeds) tr s) (u : U) :
    (asked tr).count (.info u) ≤ 1 + (calls tr).count (.info u) := by
  have hf := flow h
  have h1 := hf.enq (.info u)
  have h2 := hf.split (.info u)
  have h3 := hf.once u
  omega

example : (asked sampleScan).count (.info 3) = 1 ∧ (calls sampleScan).count (.info 3) = 0 := by decide

/-- C95, violation: a scan that is continued asks again a node that it has visited, and found inactive. -/
theorem C95_again_violates (cap : Nat) (hcap : 1 ≤ cap) (a b : U) (hab : a ≠ b) :
    ∃ tr tr' s s', Run cap (init [a, b]) tr s ∧ s.main = .idle ∧ b ∈ s.visited ∧ Ev.answer (.info b) .other ∈ tr ∧
      Run cap s tr' s' ∧ Req.info b ∈ asked tr' := by
  obtain ⟨tr₁, h1, _, h2⟩ := two_seeds cap hcap a b hab
  obtain ⟨tr₂, h3⟩ := two_seeds_end cap a b hab
  have r2 := @execAll_sound U _ cap [.call 4 (.info b), .ask (.info b)]
    ⟨.idle, 4, 0, 0, [], [a, b], [a, b], [.info b], [], false, [], [], [], []⟩
    ⟨.waiting, 4, 1, 2, [], [a, b], [a, b], [], [], true, [], [.info b], [], []⟩
    (by simp [execAll, exec, Top, Req.isAll])
  exact ⟨_, _, _, _, h1.append h3, rfl, by simp, by simp [h2], r2, by simp [asked]⟩

/-! ## C96: the end of a call -/

/-- C96 (partial): if in a call with a limit of four or more nothing but the timeout can happen any more, and no message was lost, then a
node has answered `/info` and is waiting to be asked for its peers.  Missing for the full claim (a call ends): this case
(`C96_single_violates`, `C96_late_violates`), lost messages (`C96_lost_violates`) and small limits (`C96_small_violates`). -/
theorem C96_stuck_partial (cap : Nat) (hcap : 1 ≤ cap) (seeds : List U) (tr : List (Ev U)) (s : St U) (h : Run cap (init seeds) tr s)
    (hi : s.main ≠ .idle) (hlim : ∀ n r, Ev.call n r ∈ tr → 4 ≤ n) (hdie : ∀ r, Ev.die r ∉ tr)
    (hnet : ∀ u, Ev.answer (.all u) .network ∉ tr) (hst : ∀ e s', Step cap s e s' → e = .timeout) :
    s.main = .waiting ∧ ∃ u ps, Ev.answer (.info u) (.ok ps) ∈ tr ∧ Req.all u ∈ s.pending ++ s.late := by
  have hl : lost tr = 0 := by
    rw [lost, List.countP_eq_zero]
    intro e he
    cases e with
    | die r => exact absurd he (hdie r)
    | answer r a =>
      cases r <;> cases a <;> simp [Ev.isLost]
      exact hnet _ he
    | _ => simp [Ev.isLost]
  have hlim' : s.limit ≥ 4 := by
    rcases limit_call h with ⟨rfl, _⟩ | ⟨n, r, h1, h2⟩
    · exact absurd rfl hi
    · rw [h2]; exact hlim n r h1
  obtain ⟨h1, u, hu⟩ := stuck hcap h hi hlim' hl hst
  obtain ⟨ps, hps⟩ := (content h).allSrc u (by
    rcases List.mem_append.1 hu with hu | hu
    · exact Or.inl hu
    · exact Or.inr (Or.inl hu))
  exact ⟨h1, u, ps, hps, hu⟩

example : ∃ s, Run 51 (init [7]) [.call 4 (.info 7), .ask (.info 7), .answer (.info 7) (.ok []), .post (.infoOk 7), .recv (.infoOk 7),
    .drained, .handle (.infoOk 7)] s ∧ s.main ≠ .idle ∧ (∀ e s', Step 51 s e s' → e = .timeout) := by
  refine ⟨_, execAll_sound rfl, by decide, ?_⟩
  intro e s' hs
  cases hs with
  | @post m o pre suf g1 =>
    have : (m :: o) ∈ ([[]] : List (List (Msg Nat))) := by rw [show [[]] = _ from g1]; simp
    simp at this
  | timeout => rfl
  | _ => simp_all [init, leave, effect, Msg.cost]

/-- C96: with as many calls as there are, if the nodes name finitely many others, `W`, at most `K` each, an execution has a bounded
number of steps; so a call ends or is stuck. -/
theorem C96_bounded (cap : Nat) (seeds W : List U) (K : Nat) (tr : List (Ev U)) (s : St U) (h : Run cap (init seeds) tr s)
    (hW : ∀ u ps, Ev.answer (.all u) (.ok ps) ∈ tr → ps.length ≤ K ∧ ∀ p ∈ ps, p ∈ W) :
    tr.length ≤ seeds.length + 19 * (calls tr).length + 17 * (seeds.length + W.length) +
      K * ((calls tr).length + seeds.length + W.length) := by
  have hp := pot_run h
  have hg := gain_sum K tr fun u ps hu => (hW u ps hu).1
  have hgo := goods h
  have hen := nInfo_enq tr
  have hf := flow h
  have hc := content h
  have hpush : nInfo (pushes tr) ≤ seeds.length + W.length := by
    rw [nInfo, List.countP_eq_length_filter]
    have hnd : ((pushes tr).filter fun r => !r.isAll).Nodup := by
      rw [List.nodup_iff_count_le_one]
      intro r
      cases r with
      | info u => exact Nat.le_trans (List.Sublist.count_le _ List.filter_sublist) (hf.once u)
      | all u =>
        rw [List.count_eq_zero_of_not_mem]
        · omega
        · simp [Req.isAll]
    have := (List.subperm_of_subset (l₂ := (seeds ++ W).map Req.info) hnd ?_).length_le
    · simpa using this
    · intro r hr
      rw [List.mem_filter] at hr
      cases r with
      | all u => simp [Req.isAll] at hr
      | info u =>
        have hin : Where tr s (.info u) := by
          have h1 := hf.enq (.info u)
          have h2 := hf.split (.info u)
          have h3 := List.count_pos_iff.2 hr.1
          by_cases h4 : Req.info u ∈ s.reqs
          · exact Or.inr (Or.inr (Or.inl h4))
          · rw [List.count_eq_zero_of_not_mem h4] at h1
            exact Or.inr (Or.inr (Or.inr (List.count_pos_iff.1 (by omega))))
        refine List.mem_map_of_mem ?_
        rcases hc.infoSrc u hin with h | ⟨v, ps, h1, h2⟩
        · exact List.mem_append_left _ h
        · exact List.mem_append_right _ ((hW v ps h1).2 u h2)
  have h5 : tr.countP Ev.isGood ≤ (calls tr).length + seeds.length + W.length := by omega
  have h6 := Nat.mul_le_mul_left K h5
  omega

example : sampleScan.length ≤ 2 + 19 * 1 + 17 * (2 + 3) + 3 * (1 + 2 + 3) :=
  C96_bounded 51 [0, 1] [1, 2, 3] 3 sampleScan _ sampleScan_run (by
    intro u ps h
    simp [sampleScan] at h
    rcases h with ⟨rfl, rfl⟩ | ⟨rfl, rfl⟩ <;> simp)

/-- C96 (partial): after the timeout no further node is asked for its information in that call.  Missing for the full claim: that the
call ends (`C96_late_violates`). -/
theorem C96_timeout_partial (cap : Nat) (seeds : List U) (tr tr' : List (Ev U)) (s s' : St U)
    (h : Run cap (init seeds) (tr ++ [.timeout]) s) (h' : Run cap s tr' s') (hc : ∀ n r, Ev.call n r ∉ tr') (u : U) :
    Ev.push (.info u) ∉ tr' := by
  have key : ∀ tr' s', Run cap s tr' s' → (∀ n r, Ev.call n r ∉ tr') →
      s'.addPeers = false ∧ Ev.push (.info u) ∉ tr' := by
    intro tr' s' h'
    induction h' with
    | nil =>
      intro _
      refine ⟨?_, by simp⟩
      obtain ⟨t, _, ht⟩ := run_snoc h
      cases ht
      rfl
    | @snoc tr' t e t' ht hs ih =>
      intro hc
      obtain ⟨i1, i2⟩ := ih fun n r hm => hc n r (List.mem_append_left _ hm)
      have htm := timed (h.append ht)
      constructor
      · cases hs with
        | @call n r _ _ => exact absurd (by simp) (hc n r)
        | @handle m h1 h2 =>
          show (effect _ m).addPeers = false
          rw [(effect_msgs _ m).2.2.2.2.2.1]; exact i1
        | timeout h1 h2 => rfl
        | _ => exact i1
      · intro hm
        rcases List.mem_append.1 hm with hm | hm
        · exact i2 hm
        · rw [List.mem_singleton] at hm
          subst hm
          cases hs with
          | push h1 h2 h3 h4 h5 => exact (htm (by simp [h1])).2 i1 u h2.1
  exact (key tr' s' h' hc).2

example : ∃ s s', Run 51 (init [0, 1]) (sampleScan.take 8 ++ [.timeout]) s ∧ Run 51 s [.ask (.info 1)] s' :=
  ⟨_, _, execAll_sound rfl, execAll_sound rfl⟩

/-- C96, violation: if a task dies or a request for the peers fails with a network error other than Chrome's abort, the call does not
end, nor any later one. -/
theorem C96_lost_violates (cap : Nat) :
    (∀ (seeds : List U) (tr : List (Ev U)) (s : St U) (u : U), Run cap (init seeds) tr s →
      (Ev.answer (.all u) .network ∈ tr ∨ ∃ r, Ev.die r ∈ tr) → s.main ≠ .done ∧ s.main ≠ .idle) ∧
    (1 ≤ cap → ∀ a b : U, a ≠ b → ∃ tr s, Run cap (init [a, b]) tr s ∧ Ev.answer (.all a) .network ∈ tr ∧ Ev.timeout ∈ tr ∧
      ∀ e s', ¬ Step cap s e s') := by
  constructor
  · intro seeds tr s u h hu
    have hl : 0 < lost tr := by
      rcases hu with hu | ⟨r, hu⟩
      · exact List.countP_pos_iff.2 ⟨_, hu, rfl⟩
      · exact List.countP_pos_iff.2 ⟨_, hu, rfl⟩
    constructor
    · intro hd; have := (atDone h hd).2.2.2.1; omega
    · intro hd; have := (atIdle h hd).2.2.1; omega
  · intro hcap a b hab
    obtain ⟨tr, h1, h2, _⟩ := two_seeds cap hcap a b hab
    have h3 := @execAll_sound U _ cap [.ask (.all a), .answer (.all a) .network]
      ⟨.waiting, 4, 1, 2, [], [a, b], [a, b], [], [], false, [.all a], [], [[], []], []⟩
      ⟨.waiting, 4, 1, 2, [], [a, b], [a, b], [], [], false, [], [], [[], [], []], []⟩ (by simp [execAll, exec, replies])
    refine ⟨_, _, h1.append h3, by simp, by simp [h2], ?_⟩
    intro e s' hs
    cases hs with
    | @post m o pre suf g1 =>
      have : (m :: o) ∈ ([[], [], []] : List (List (Msg U))) := by rw [show [[], [], []] = _ from g1]; simp
      simp at this
    | _ => simp_all

/-- C96, violation: if a node has answered `/info`, this has been handled, and the timeout comes before it is asked for its peers, the
call never ends: the request waits for the next call, but counts in this one. -/
theorem C96_late_violates (cap : Nat) (seeds : List U) (tr tr' : List (Ev U)) (s s' : St U) (u : U)
    (h : Run cap (init seeds) tr s) (hu : Ev.handle (.infoOk u) ∈ tr) (hp : Ev.push (.all u) ∉ tr)
    (h' : Run cap s (.timeout :: tr') s') : s'.main ≠ .idle ∧ s'.main ≠ .done ∧ Ev.finish ∉ tr' := by
  obtain ⟨t, ht, h''⟩ := run_cons h'
  have hw : Req.all u ∈ t.late := by
    have hq := handled_where h hu
    cases ht with
    | timeout h1 h2 =>
      rcases hq with hq | hq | hq | hq
      · exact List.mem_append_left _ hq
      · exact List.mem_append_right _ hq
      · exact absurd (enq_mem h (Or.inl hq)) hp
      · exact absurd (enq_mem h (Or.inr hq)) hp
  have hti : t.main ≠ .idle := by
    cases ht with
    | timeout h1 h2 => simp [h1]
  obtain ⟨k1, k2, _, k4⟩ := late_stays (h.snoc ht) hti hw h''
  exact ⟨k1, k2, k4⟩

example : ∃ s s', Run 51 (init [0, 1]) (sampleScan.take 8) s ∧ Ev.handle (.infoOk 0) ∈ sampleScan.take 8 ∧
    Ev.push (.all 0) ∉ sampleScan.take 8 ∧ Run 51 s [.timeout, .ask (.info 1), .answer (.info 1) .other] s' :=
  ⟨_, _, execAll_sound rfl, by decide, by decide, execAll_sound rfl⟩

/-- C96, violation: a scan with a single seed whose `/info` is answered never ends and never asks for its peers; in every such execution
the call is stuck, at the latest after the timeout. -/
theorem C96_single_violates (cap : Nat) (a : U) :
    (∀ (tr : List (Ev U)) (s : St U) (ps : List U), Run cap (init [a]) tr s → Ev.answer (.info a) (.ok ps) ∈ tr →
      s.main ≠ .done ∧ s.main ≠ .idle ∧ Ev.finish ∉ tr ∧ Ev.ask (.all a) ∉ tr) ∧
    ∀ n, ∃ tr s, Run cap (init [a]) tr s ∧ (∃ r, Ev.call n r ∈ tr) ∧ Ev.answer (.info a) (.ok []) ∈ tr ∧ Ev.timeout ∈ tr ∧
      ∀ e s', ¬ Step cap s e s' := by
  constructor
  · intro tr s ps h hps
    have hq := single_quiet h ps hps
    exact hq
  · intro n
    have r1 := @execAll_sound U _ cap [.call n (.info a), .ask (.info a), .answer (.info a) (.ok []), .post (.infoOk a),
      .recv (.infoOk a), .drained, .handle (.infoOk a), .timeout] (init [a])
      ⟨.waiting, n, 1, 0, [], [], [a], [], [.all a], false, [], [], [[]], []⟩
      (by simp [execAll, exec, init, replies, ins, Top, Req.isAll, Req.url, St.room, St.fresh, takePost, leave, effect, Msg.cost])
    refine ⟨_, _, r1, ⟨.info a, by simp⟩, by simp, by simp, ?_⟩
    intro e s' hs
    cases hs with
    | @post m o pre suf g1 =>
      have : (m :: o) ∈ ([[]] : List (List (Msg U))) := by rw [show [[]] = _ from g1]; simp
      simp at this
    | _ => simp_all

/-- C96, violation: limits of one and two are allowed, but with them, and with three if no request is aborted, only the first request of
a call is made, and no peer is ever found. -/
theorem C96_small_violates (cap : Nat) (seeds : List U) (tr : List (Ev U)) (s : St U) (h : Run cap (init seeds) tr s)
    (hn : (∀ n r, Ev.call n r ∈ tr → n ≤ 2) ∨ ((∀ n r, Ev.call n r ∈ tr → n ≤ 3) ∧ ∀ r, Ev.answer r .abort ∉ tr)) :
    (∀ r ∈ asked tr, r ∈ calls tr) ∧ s.active = [] := by
  have hs := small h hn
  have hpn : pushes tr = [] := by
    rw [pushes, List.filterMap_eq_nil_iff]
    intro e he
    cases e <;> simp
    exact hs _ he
  have hf := flow h
  have h1 : ∀ r ∈ asked tr, r ∈ calls tr := by
    intro r hr
    have h1 := hf.enq r
    have h2 := hf.split r
    rw [hpn, List.count_nil] at h2
    have := List.count_pos_iff.2 hr
    exact List.count_pos_iff.1 (by omega)
  refine ⟨h1, ?_⟩
  rw [List.eq_nil_iff_forall_not_mem]
  intro u hu
  obtain ⟨ps, hps⟩ := (content h).msgActive u (Or.inr hu)
  exact hf.callInfo u (h1 _ ((content h).ans1 _ _ hps))

example : ∃ s, Run 51 (init [0, 1]) [.call 2 (.info 0), .ask (.info 0), .answer (.info 0) .other, .post (.infoFail 0),
    .recv (.infoFail 0), .drained, .handle (.infoFail 0), .timeout] s ∧ s.main = .waiting := ⟨_, execAll_sound rfl, rfl⟩

end Verif
