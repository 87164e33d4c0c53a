import Verif.Proofs.TimerMore

/-!
# C83, C84: delays, timers and intervals

`timer.rs`, `timer/delay.rs`, `timer/interval.rs`, `timer/arc_list.rs` and `wasm.rs` of `ergo-rest/src/wasm_timer`.  The specification
of one delay, without other delays, heaps or generations, is `Spec.Timer.Delay`.
-/

set_option linter.unusedSimpArgs false
set_option linter.unusedVariables false

namespace Verif
namespace Props
open Timer TimerHeap
open Spec.Timer (Delay delay Allowed Program Touches Reached Interleave IEv intervalRun)

/-! ## Delays -/

/-- C83.  Whatever delays a program creates, resets and drops on a timer, in whatever order with polls of the timer and advances: nothing
panics, and polling a delay gives what it would give if it were alone. -/
theorem C83_delay (l : List Ev) (hp : Program l) :
    ∃ w, World.new.run l = .ok w ∧ ∀ n d s f, delay n l = .live d s f → w.pollDelay n = if f then .readyOk else .pending := by
  obtain ⟨w, hr, hJ, _⟩ := run_J hp
  exact ⟨w, hr, fun n d s f h => pollDelay_live hJ h⟩

/-- C83.  A delay that was created with or reset to the deadline `due`, and not reset or dropped since, is resolved exactly if since
then the timer was polled and afterwards advanced to `due` or beyond; until then it is pending. -/
theorem C83_resolves (n due : Nat) (pre post : List Ev) (e : Ev) (he : e = .create n due ∨ e = .reset n due)
    (hp : Program (pre ++ e :: post)) (hpost : ∀ e ∈ post, ¬ Touches n e) :
    ∃ w, World.new.run (pre ++ e :: post) = .ok w ∧ (w.pollDelay n = .readyOk ↔ Reached due post) ∧
      (w.pollDelay n = .pending ↔ ¬ Reached due post) := by
  obtain ⟨w, hr, hJ, _⟩ := run_J hp
  have hset : delay n (pre ++ [e]) = .live due false false := by
    have ha := hp pre e post rfl
    rw [delay_append]
    rcases he with rfl | rfl
    · have ha : delay n pre = .absent := ha
      rw [ha]; simp [Delay.step]
    · obtain ⟨d, s, f, ha⟩ : ∃ d s f, delay n pre = .live d s f := ha
      rw [ha]; simp [Delay.step]
  obtain ⟨s', f', h1, h2⟩ := fold_untouched (n := n) (d := due) post false false hpost
  have hall : delay n (pre ++ e :: post) = .live due s' f' := by
    rw [← h1, ← hset]
    simp [delay, List.foldl_append]
  have hpoll := pollDelay_live hJ hall
  simp only [Bool.false_eq_true, false_and, false_or] at h2
  refine ⟨w, hr, ?_, ?_⟩
  · rw [hpoll, ← h2]; cases f' <;> simp
  · rw [hpoll, ← h2]; cases f' <;> simp

/-- Two delays, one reset before it is due: the first resolves at 20, the second not before 50. -/
example : ∃ w, World.new.run [.create 0 10, .create 1 30, .pollTimer, .reset 0 20, .advance 15, .pollTimer, .reset 1 50, .advance 20,
    .pollTimer, .advance 40] = .ok w ∧ w.pollDelay 0 = .readyOk ∧ w.pollDelay 1 = .pending ∧ w.nextEvent = some 50 :=
  ⟨_, rfl, rfl, rfl, rfl⟩

theorem advance_list {now : Nat} : ∀ (fuel : Nat) (w w' : World), World.advanceLoop fuel w now = .ok w' → w'.list = w.list
  | 0, w, w', h => by cases h
  | fuel + 1, w, w', h => by
    rw [World.advanceLoop] at h
    split at h
    · split at h
      · rcases hp : w.heap.pop HeapTimer.le with ⟨e, h1⟩ | _ | _
        · rw [hp] at h
          simp only [Outcome.bind_ok] at h
          cases e with
          | none => cases h
          | some e => exact (advance_list fuel _ _ h).trans rfl
        · rw [hp] at h; cases h
        · rw [hp] at h; cases h
      · injection h with h; rw [h]
    · injection h with h; rw [h]

/-- C83.  After the timer was polled and then advanced any number of times, its next event is the earliest deadline of the delays that
are not resolved, and there is none exactly if there is no such delay: a thread that sleeps until then misses nothing. -/
theorem C83_next_event (l : List Ev) (nows : List Nat) (hp : Program (l ++ .pollTimer :: nows.map .advance)) :
    ∃ w, World.new.run (l ++ .pollTimer :: nows.map .advance) = .ok w ∧
      (w.nextEvent = none ↔ ∀ n d s, delay n (l ++ .pollTimer :: nows.map .advance) ≠ .live d s false) ∧
      ∀ t, w.nextEvent = some t →
        (∃ n s, delay n (l ++ .pollTimer :: nows.map .advance) = .live t s false) ∧
        ∀ n d s, delay n (l ++ .pollTimer :: nows.map .advance) = .live d s false → t ≤ d := by
  obtain ⟨w, hr, hJ, ht⟩ := run_J hp
  have hl : w.list = [] := by
    obtain ⟨w0, hr0, hJ0, ht0⟩ := run_J (program_prefix (a := l ++ [.pollTimer]) (b := nows.map .advance) (by simpa using hp))
    have h0 : w0.list = [] := by
      obtain ⟨w1, hr1, hJ1, ht1⟩ := run_J (program_prefix hp)
      obtain ⟨w2, e2, _, _, h4, _⟩ := pollTimer_J hJ1 ht1
      rw [run_append, hr1] at hr0
      simp only [Outcome.bind_ok, World.run, World.step, e2, Outcome.ok.injEq] at hr0
      rw [← hr0]; exact h4
    have key : ∀ (nows : List Nat) (v v' : World), v.run (nows.map .advance) = .ok v' → v'.list = v.list := by
      intro nows
      induction nows with
      | nil => intro v v' h; simp only [List.map_nil, World.run, Outcome.ok.injEq] at h; rw [h]
      | cons now nows ih =>
        intro v v' h
        simp only [List.map_cons, World.run, World.step] at h
        rcases ha : v.advance now with v1 | _ | _
        · rw [ha] at h
          simp only [Outcome.bind_ok] at h
          rw [ih v1 v' h]
          unfold World.advance at ha
          split at ha
          · injection ha with ha; rw [ha]
          · exact advance_list _ _ _ ha
        · rw [ha] at h; cases h
        · rw [ha] at h; cases h
    have e : l ++ .pollTimer :: nows.map .advance = (l ++ [.pollTimer]) ++ nows.map .advance := by simp
    rw [e, run_append, hr0] at hr
    simp only [Outcome.bind_ok] at hr
    rw [key nows w0 w hr, h0]
  have hseen : ∀ n d s, delay n (l ++ .pollTimer :: nows.map .advance) = .live d s false → s = true := by
    intro n d s h
    obtain ⟨_, _, _, _, a4, _⟩ := hJ.live n d s false h
    exact a4.2 (by simp [hl, ht])
  refine ⟨w, hr, ?_, ?_⟩
  · rcases nextEvent_J hJ ht hl with ⟨h1, h2⟩ | ⟨t, h1, ⟨n, h2⟩, h3⟩
    · refine ⟨fun _ n d s h => ?_, fun _ => h1⟩
      have := hseen n d s h
      subst this
      exact h2 n d h
    · rw [h1]
      exact ⟨(fun h => by cases h), fun h => absurd h2 (h n t true)⟩
  · intro t ht'
    rcases nextEvent_J hJ ht hl with ⟨h1, h2⟩ | ⟨t', h1, ⟨n, h2⟩, h3⟩
    · rw [h1] at ht'; cases ht'
    · rw [h1] at ht'
      injection ht' with ht'
      subst ht'
      refine ⟨⟨n, true, h2⟩, fun m d s h => ?_⟩
      have := hseen m d s h
      subst this
      exact h3 m d h

/-! ## A timer that is dropped -/

/-- C83.  When the timer is dropped, a delay that is resolved stays so and every other one fails; a delay created or reset afterwards
changes nothing about that, and a new one fails at once. -/
theorem C83_gone_partial (l : List Ev) (hp : Program l) :
    ∃ w, World.new.run (l ++ [.dropTimer]) = .ok w ∧
      (∀ n d s f, delay n l = .live d s f → w.pollDelay n = (if f then .readyOk else .readyErr) ∧
        ∀ due, ∃ w', w.step (.reset n due) = .ok w' ∧ w'.pollDelay n = if f then .readyOk else .readyErr) ∧
      ∀ n due, ∃ w', w.step (.create n due) = .ok w' ∧ w'.pollDelay n = .readyErr := by
  obtain ⟨w, hr, hJ, ht⟩ := run_J hp
  obtain ⟨w', e, hg, hpoll⟩ := dropTimer_J hJ ht
  refine ⟨w', by rw [run_append, hr]; simp [World.run, World.step, e], fun n d s f h => ⟨hpoll n d s f h, fun due => ?_⟩, ?_⟩
  · refine ⟨_, rfl, ?_⟩
    have : (w'.reset n due).pollDelay n = w'.pollDelay n := by
      unfold World.reset
      by_cases hh : w'.held n = true
      · simp only [hh, hg, if_true]; rfl
      · simp only [hh, if_false]; rfl
    rw [this]; exact hpoll n d s f h
  · intro n due
    refine ⟨_, rfl, ?_⟩
    simp [World.create, hg, World.pollDelay]

/-- One delay is resolved and one is not when the timer is dropped. -/
example : ∃ w, World.new.run [.create 0 10, .create 1 30, .pollTimer, .advance 20, .dropTimer] = .ok w ∧
    w.pollDelay 0 = .readyOk ∧ w.pollDelay 1 = .readyErr := ⟨_, rfl, rfl, rfl⟩

/-- C83, what is missing: "resetting is equivalent to a new delay" is false once the timer is gone.  A delay that was resolved before,
reset to a time that has not come, is resolved at once and successfully; a new delay for the same time fails. -/
theorem C83_reset_gone_violates :
    ∃ w, World.new.run [.create 0 10, .pollTimer, .advance 10, .dropTimer, .reset 0 1000, .create 1 1000] = .ok w ∧
      w.pollDelay 0 = .readyOk ∧ w.pollDelay 1 = .readyErr := ⟨_, rfl, rfl, rfl⟩

/-- C83, what is missing: the documentation of `reset_at` says that a delay reset to a time in the past resolves immediately when
polled.  It is pending until the timer is polled and advanced. -/
theorem C83_past_violates :
    ∃ w, World.new.run [.create 0 10, .pollTimer, .advance 50, .reset 0 20] = .ok w ∧ w.pollDelay 0 = .pending := ⟨_, rfl, rfl⟩

/-! ## Several threads -/

/-- C83.  The smaller steps of a reset, run without interruption, are the reset; those of a round of the timer's thread are a poll and
an advance. -/
theorem C83_micro (l : List Ev) (hp : Program l) :
    ∃ w, World.new.run l = .ok w ∧
      (∀ n d s f due, delay n l = .live d s f →
        ({ w with when_ := fun k => if k = n then due else w.when_ k } : World).micros (resetSteps n due) = w.step (.reset n due)) ∧
      ∀ now, w.micros (roundSteps w.list.length now) = w.run [.pollTimer, .advance now] := by
  obtain ⟨w, hr, hJ, ht⟩ := run_J hp
  refine ⟨w, hr, fun n d s f due h => ?_, fun now => ?_⟩
  · obtain ⟨a1, _, g, a3, _⟩ := hJ.live n d s f h
    have hb : ¬ (w.node n).state / 2 % 2 = 1 := by rw [a3]; split <;> omega
    simp only [resetSteps, World.micros, World.micro, World.step, World.reset, World.cas, hb, if_false, a1, if_true, hJ.gone,
      Bool.false_eq_true, Outcome.bind_ok]
  · have hg := hJ.gone
    rw [roundSteps, List.cons_append, World.micros]
    simp only [World.micro, Outcome.bind_ok]
    rw [micros_append, micros_process]
    simp only [World.run, World.step, World.pollTimer, hg, Bool.false_eq_true, if_false]
    have : w.take.taken.length = w.list.length := rfl
    rw [this]
    rcases World.process w.list.length w.take with v | _ | _
    · simp only [Outcome.bind_ok, World.micros, World.micro]
    · rfl
    · rfl

/-- C83, what is missing for several threads: a reset to 100 that runs in parallel with a round of the timer's thread at time 10 can
leave the delay resolved, because the generation is raised before the deadline is stored and the timer pairs the new generation with
the old deadline.  If the two ran one after the other, in either order, the delay would be pending. -/
theorem C83_race_violates :
    ∃ (w : World) (l : List Micro), World.new.run [.create 0 10] = .ok w ∧ Interleave (resetSteps 0 100) (roundSteps 1 10) l ∧
      (∃ w', w.micros l = .ok w' ∧ w'.pollDelay 0 = .readyOk) ∧
      (∃ w', w.micros (resetSteps 0 100 ++ roundSteps 1 10) = .ok w' ∧ w'.pollDelay 0 = .pending) ∧
      (∃ w', w.micros (roundSteps 1 10 ++ resetSteps 0 100) = .ok w' ∧ w'.pollDelay 0 = .pending) := by
  refine ⟨_, [.take, .pick, .cas 0, .apply, .advance 10, .setAt 0 100, .push 0], rfl, ?_, ⟨_, rfl, rfl⟩, ⟨_, rfl, rfl⟩, ⟨_, rfl, rfl⟩⟩
  exact .right (.right (.left (.right (.right (.left (.left .nil))))))

/-! ## Intervals -/

/-- C84.  The next deadline of an interval is the first time after `now` that is a whole number of intervals, at least one, after the
previous deadline. -/
theorem C84_next (prev now i t : Nat) (h : nextInterval prev now i = .ok t) :
    (∃ k, 1 ≤ k ∧ t = prev + k * i) ∧ now < t ∧ ∀ k, 1 ≤ k → now < prev + k * i → t ≤ prev + k * i := by
  obtain ⟨k, h1, h2, h3, h4⟩ := nextInterval_ok h
  exact ⟨⟨k, h1, h2⟩, h3, h4⟩

/-- Three deadlines were missed. -/
example : nextInterval 100 137 10 = .ok 140 := by rfl

/-- C84.  Computing the next deadline panics exactly if a deadline was missed and the interval is zero, or the delay is 2^64
nanoseconds or more, or 2^32 - 1 or more intervals long; it never fails otherwise. -/
theorem C84_panic (prev now i : Nat) :
    nextInterval prev now i ≠ .err ∧
    (nextInterval prev now i = .panic ↔ prev + i ≤ now ∧ (i = 0 ∨ 2 ^ 64 ≤ now - prev ∨ 2 ^ 32 ≤ (now - prev) / i + 1)) :=
  ⟨nextInterval_ne_err prev now i, nextInterval_panic prev now i⟩

/-- C84, what is missing: an interval of zero, which can be created, panics when its first item is due. -/
theorem C84_zero_violates : ∃ w, World.new.run [.create 0 10, .pollTimer, .advance 10] = .ok w ∧ w.pollInterval 0 0 10 = .panic :=
  ⟨_, rfl, rfl⟩

/-- C84.  Polling an interval yields an item exactly if its delay is resolved; the delay is then reset to the next deadline. -/
theorem C84_poll (l : List Ev) (hp : Program l) (n d i now : Nat) (s f : Bool) (h : delay n l = .live d s f) :
    ∃ w, World.new.run l = .ok w ∧ (f = false → w.pollInterval n i now = .ok (false, w)) ∧
      (f = true → (nextInterval d now i = .panic ∧ w.pollInterval n i now = .panic) ∨
        ∃ t w', nextInterval d now i = .ok t ∧ w.pollInterval n i now = .ok (true, w') ∧
          World.new.run (l ++ [.reset n t]) = .ok w' ∧ w'.when_ n = t) := by
  obtain ⟨w, hr, hJ, ht⟩ := run_J hp
  have hpd := pollDelay_live hJ h
  refine ⟨w, hr, ?_, ?_⟩
  · rintro rfl
    unfold World.pollInterval
    rw [hpd]; rfl
  · rintro rfl
    unfold World.pollInterval
    rw [hpd, hJ.whn n d s true h]
    rcases hn : nextInterval d now i with t | _ | _
    · refine Or.inr ⟨t, w.reset n t, rfl, rfl, ?_, ?_⟩
      · rw [run_append, hr]; rfl
      · exact (reset_J hJ (due := t) h).whn n t false false (by simp [put])
    · exact absurd hn (nextInterval_ne_err _ _ _)
    · exact Or.inl ⟨rfl, rfl⟩

/-- C84.  An interval whose first deadline is `first` never runs ahead: however it is polled and whatever else happens on the timer, the
deadline stays on the grid of `first` and the interval, and the item number `y` is yielded only after the timer was advanced to
`first + (y - 1) * i` or beyond. -/
theorem C84_rate (n i first : Nat) (pre : List Ev) (l : List IEv) (w : World) (hw : World.new.run (pre ++ [.create n first]) = .ok w)
    (hl : ∀ e, .ev e ∈ l → ¬ Touches n e) (tr : List Ev) (y : Nat) (w' : World)
    (hr : intervalRun n i w l = .ok (tr, y, w')) (hp : Program (pre ++ .create n first :: tr)) :
    World.new.run (pre ++ .create n first :: tr) = .ok w' ∧
      (∃ k s f, delay n (pre ++ .create n first :: tr) = .live (first + k * i) s f ∧ y ≤ k) ∧
      (0 < y → ∃ now, .advance now ∈ tr ∧ first + (y - 1) * i ≤ now) := by
  have hp' : Program ((pre ++ [.create n first]) ++ [] ++ tr) := by simpa using hp
  obtain ⟨w0, hr0, hJ, ht⟩ := run_J (program_prefix (a := pre ++ [.create n first]) (b := tr) (by simpa using hp))
  rw [hw] at hr0
  injection hr0 with hr0
  subst hr0
  have hd : delay n (pre ++ [.create n first]) = .live first false false := by
    have ha : delay n pre = .absent := hp pre (.create n first) tr rfl
    rw [delay_append, ha]; simp [Delay.step]
  obtain ⟨c1, c2, c3⟩ := intervalRun_J (n := n) (i := i) (first := first) l w (pre ++ [.create n first]) [] 0 0 false false hl
    (by simpa using hJ) ht (by simpa using hd) (Nat.le_refl 0) (by simp) (by simp) tr y w' hr hp'
  refine ⟨?_, ?_, ?_⟩
  · have : pre ++ Ev.create n first :: tr = (pre ++ [.create n first]) ++ tr := by simp
    rw [this, run_append, hw]; exact c1
  · simpa using c2
  · simpa using c3

/-- Polled late, the interval skips two items: three are yielded up to 60, at 10, at 45 for 20 and at 60 for 50. -/
example : ∃ w w', World.new.run [.create 0 10] = .ok w ∧
    intervalRun 0 10 w [.ev .pollTimer, .ev (.advance 10), .poll 10, .poll 11, .ev .pollTimer, .ev (.advance 45), .poll 45, .ev .pollTimer,
      .ev (.advance 60), .poll 60] =
      .ok ([.pollTimer, .advance 10, .reset 0 20, .pollTimer, .advance 45, .reset 0 50, .pollTimer, .advance 60, .reset 0 70], 3, w') :=
  ⟨_, _, rfl, rfl⟩

/-- C84, what is missing: an interval on a timer that is gone yields an item at every poll, without any time passing, because a failed
delay counts as a resolved one. -/
theorem C84_gone_violates (i k : Nat) (hi : 0 < i) :
    ∃ w w' tr, World.new.run [.create 0 10, .dropTimer] = .ok w ∧
      intervalRun 0 i w (List.replicate k (.poll 0)) = .ok (tr, k, w') := by
  obtain ⟨w, hw, hg, hp⟩ : ∃ w, World.new.run [.create 0 10, .dropTimer] = .ok w ∧ w.gone = true ∧ w.pollDelay 0 = .readyErr :=
    ⟨_, rfl, rfl, rfl⟩
  have key : ∀ (k : Nat) (w : World), w.gone = true → w.pollDelay 0 = .readyErr →
      ∃ w' tr, intervalRun 0 i w (List.replicate k (.poll 0)) = .ok (tr, k, w') := by
    intro k
    induction k with
    | zero => intro w _ _; exact ⟨w, [], rfl⟩
    | succ k ih =>
      intro w hg hp
      have hn : nextInterval (w.when_ 0) 0 i = .ok (w.when_ 0 + i) := by
        unfold nextInterval; rw [if_pos (by omega)]
      have hres : (w.reset 0 (w.when_ 0 + i)).gone = true ∧ (w.reset 0 (w.when_ 0 + i)).pollDelay 0 = .readyErr := by
        unfold World.reset
        by_cases hh : w.held 0 = true
        · simp only [hh, hg, if_true]; exact ⟨trivial, hp⟩
        · simp only [hh, if_false]; exact ⟨hg, hp⟩
      obtain ⟨w', tr, e⟩ := ih _ hres.1 hres.2
      refine ⟨w', .reset 0 ((w.reset 0 (w.when_ 0 + i)).when_ 0) :: tr, ?_⟩
      rw [List.replicate_succ, intervalRun]
      have : w.pollInterval 0 i 0 = .ok (true, w.reset 0 (w.when_ 0 + i)) := by
        unfold World.pollInterval; rw [hp]; simp [hn]
      rw [this]
      simp only [Outcome.bind_ok, e, if_true]
  obtain ⟨w', tr, e⟩ := key k w hg hp
  exact ⟨w, w', tr, hw, e⟩

/-! ## System time -/

/-- C84, what is missing: `SystemTime::elapsed` has its operands exchanged.  For every time in the past it fails, and for a time in the
future it gives the time that is left. -/
theorem C84_elapsed_violates (self now : Nat) :
    (self < now → elapsed self now = none) ∧ (now ≤ self → elapsed self now = some (self - now)) := by
  unfold elapsed durationSince
  exact ⟨fun h => if_pos h, fun h => if_neg (by omega)⟩

/-- A time one second ago. -/
example : elapsed 5000 6000 = none := by rfl

end Props
end Verif
