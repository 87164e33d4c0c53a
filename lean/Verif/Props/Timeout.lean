import Verif.Props.Timer
import Verif.Proofs.Timeout

/-! # C100: futures and streams with a timeout -/

set_option linter.unusedSimpArgs false
set_option linter.unusedVariables false

namespace Verif
namespace Props
open Timer TimerHeap
open Spec.Timer (Delay delay Allowed Program Touches Reached)
variable {R : Type}

/-- C100: whatever else the program does, a future with a timeout gives the result of the wrapped future if that is ready; otherwise the
error `TimedOut` exactly if the timer was polled since it was created and afterwards advanced to its deadline; otherwise it is pending. -/
theorem C100_future (n due : Nat) (pre post : List Ev) (hp : Program (pre ++ .create n due :: post)) (hpost : ∀ e ∈ post, ¬ Touches n e) :
    ∃ w, World.new.run (pre ++ .create n due :: post) = .ok w ∧ (∀ r : R, w.pollTimeout n (some r) = some (.inner r)) ∧
      (w.pollTimeout n (none : Option R) = some .timedOut ↔ Reached due post) ∧
      (w.pollTimeout n (none : Option R) = none ↔ ¬ Reached due post) := by
  obtain ⟨w, h1, h2, h3⟩ := C83_resolves n due pre post _ (.inl rfl) hp hpost
  refine ⟨w, h1, fun _ => rfl, ?_, ?_⟩
  · unfold World.pollTimeout
    by_cases h : Reached due post
    · rw [h2.2 h]; simp [h]
    · rw [h3.2 h]; simp [h]
  · unfold World.pollTimeout
    by_cases h : Reached due post
    · rw [h2.2 h]; simp [h]
    · rw [h3.2 h]; simp [h]

/-- Pending before the deadline and an error after; the future that is ready late still gives its result. -/
example : ∃ w w', World.new.run [.create 0 10, .create 1 3, .pollTimer, .advance 9] = .ok w ∧ w.pollTimeout 0 (none : Option Nat) = none ∧
    World.new.run [.create 0 10, .create 1 3, .pollTimer, .advance 9, .advance 12] = .ok w' ∧
    w'.pollTimeout 0 (none : Option Nat) = some .timedOut ∧ w'.pollTimeout 0 (some 7) = some (.inner 7) :=
  ⟨_, _, rfl, rfl, rfl, rfl, rfl⟩

/-- C100: a stream with a timeout answers each poll at which the wrapped stream has an answer with that answer, and no other poll with an
answer of the wrapped stream: no item is lost, invented or moved. -/
theorem C100_items (n dur : Nat) : ∀ (l : List (SEv R)) (w w' : World) (ys : List (Option (Yield R))),
    w.streamRun n dur l = .ok (ys, w') →
    ys.length = l.length ∧ ∀ (i : Nat) (r : R), ys[i]? = some (some (.inner r)) ↔ ∃ now, l[i]? = some (.poll now (some r))
  | [], w, w', ys, h => by
    simp only [World.streamRun, Outcome.ok.injEq, Prod.mk.injEq] at h
    obtain ⟨rfl, rfl⟩ := h
    simp
  | x :: l, w, w', ys, h => by
    simp only [World.streamRun, Outcome.bind_eq_ok] at h
    obtain ⟨⟨y, w1⟩, h1, ⟨ys', w2⟩, h2, h3⟩ := h
    simp only [Outcome.ok.injEq, Prod.mk.injEq] at h3
    obtain ⟨rfl, rfl⟩ := h3
    obtain ⟨g1, g2⟩ := C100_items n dur l w1 w2 ys' h2
    refine ⟨by simp [g1], fun i r => ?_⟩
    cases i with
    | succ i => simpa using g2 i r
    | zero =>
      simp only [List.getElem?_cons_zero, Option.some.injEq]
      cases x with
      | ev e =>
        simp only [World.streamStep, Outcome.bind_eq_ok, Outcome.ok.injEq, Prod.mk.injEq] at h1
        obtain ⟨_, _, rfl, _⟩ := h1
        simp
      | poll now inner =>
        simp only [World.streamStep, Outcome.ok.injEq] at h1
        cases inner with
        | some r' => cases h1; simp
        | none =>
          simp only [World.pollStream] at h1
          split at h1 <;> (cases h1; simp)

/-- C100: a stream with a timeout of `dur`, used in any program that does not drop the timer, does not panic.  A poll at which the wrapped
stream is pending is answered with the error `TimedOut` exactly if, since the last answer, the timer was polled and afterwards advanced
to `dur` after that answer; before the first answer the deadline is the first one. -/
theorem C100_stream (n dur first : Nat) (pre : List Ev) (l : List (SEv R)) (hl : ∀ e, .ev e ∈ l → ¬ Touches n e)
    (hp : Program (pre ++ .create n first :: evsOf l)) :
    ∃ w ys w', World.new.run (pre ++ [.create n first]) = .ok w ∧ w.streamRun n dur l = .ok (ys, w') ∧
      (∀ a now i b t c ya y z yc, l = a ++ .poll now i :: (b ++ .poll t none :: c) → ya.length = a.length →
        ys = ya ++ some y :: (List.replicate b.length none ++ z :: yc) →
        z = some .timedOut ∧ Reached (now + dur) (evsOf b) ∨ z = none ∧ ¬ Reached (now + dur) (evsOf b)) ∧
      (∀ b t c z yc, l = b ++ .poll t none :: c → ys = List.replicate b.length none ++ z :: yc →
        z = some .timedOut ∧ Reached first (evsOf b) ∨ z = none ∧ ¬ Reached first (evsOf b)) := by
  have hp' : Program ((pre ++ [.create n first]) ++ evsOf l) := by simpa using hp
  obtain ⟨w, hr, hJ, ht⟩ := run_J (program_prefix hp')
  have hall := allowedAll_of_program hp'
  have hd : delay n (pre ++ [.create n first]) = .live first false false := by
    have ha : delay n pre = .absent := hp pre (.create n first) (evsOf l) rfl
    rw [delay_append, ha]; simp [Delay.step]
  have ho : Off n (fun m => delay m (pre ++ [.create n first])) (fun m => delay m (pre ++ [.create n first])) :=
    ⟨fun _ _ => rfl, _, _, _, hd⟩
  obtain ⟨ys, w', σ', h1, _⟩ := streamRun_J (dur := dur) l hJ ht ho hl hall
  -- after silent steps from a fresh deadline
  have silent : ∀ (b : List (SEv R)) (t : Nat) (c : List (SEv R)) (v v' : World) (σ σ0 : Nat → Delay) (d : Nat)
      (z : Option (Yield R)) (yc : List (Option (Yield R))), J v σ → v.taken = [] → Off n σ σ0 → σ n = .live d false false →
      (∀ e, .ev e ∈ b → ¬ Touches n e) → AllowedAll σ0 (evsOf b) →
      v.streamRun n dur (b ++ .poll t none :: c) = .ok (List.replicate b.length none ++ z :: yc, v') →
      z = some .timedOut ∧ Reached d (evsOf b) ∨ z = none ∧ ¬ Reached d (evsOf b) := by
    intro b t c v v' σ σ0 d z yc hJ ht ho hd hb ha hrun
    obtain ⟨yb, v1, σ1, g1, g2, g3, g4, g5, g6⟩ := streamRun_J (dur := dur) b hJ ht ho hb ha
    rw [streamRun_append, g1] at hrun
    simp only [Outcome.bind_ok, Outcome.bind_eq_ok] at hrun
    obtain ⟨⟨y2, v2⟩, k1, k2⟩ := hrun
    simp only [Outcome.ok.injEq, Prod.mk.injEq] at k2
    obtain ⟨k2, rfl⟩ := k2
    obtain ⟨rfl, rfl⟩ := List.append_inj k2 (by simp [g2])
    obtain ⟨z', v3, σ3, m1, _, _, _, _, m6⟩ := streamStep_J (dur := dur) g3 g4 g5 (.poll t none : SEv R) (by simp) (by simp)
    simp only [World.streamRun, m1, Outcome.bind_ok, Outcome.bind_eq_ok] at k1
    obtain ⟨⟨y4, v4⟩, _, k3⟩ := k1
    simp only [Outcome.ok.injEq, Prod.mk.injEq, List.cons.injEq] at k3
    obtain ⟨⟨rfl, _⟩, _⟩ := k3
    have hz := (m6 t none rfl).2
    have hs : σ1 n = (evsOf b).foldl (Delay.step n) (.live d false false) := by
      rw [g6 (by simp), hd]
    have hbt : ∀ e, e ∈ evsOf b → ¬ Touches n e := by
      intro e he
      obtain ⟨x, hx, hxe⟩ := List.mem_filterMap.1 he
      cases x with
      | ev e' => simp only [Option.some.injEq] at hxe; subst hxe; exact hb e' hx
      | poll _ _ => cases hxe
    obtain ⟨s', f', q1, q2⟩ := fold_untouched (n := n) (d := d) (evsOf b) false false hbt
    simp only [Bool.false_eq_true, false_and, false_or] at q2
    rw [hs, q1] at hz
    cases f' with
    | true => exact .inl ⟨hz, q2.1 rfl⟩
    | false => exact .inr ⟨hz, fun h => by cases q2.2 h⟩
  refine ⟨w, ys, w', hr, h1, ?_, ?_⟩
  · intro a now i b t c ya y z yc hle hya hys
    subst hle
    have hall' : AllowedAll (fun m => delay m (pre ++ [.create n first])) (evsOf a ++ evsOf b) := by
      intro p e q hpq
      refine hall p e (q ++ evsOf c) ?_
      have : evsOf (a ++ .poll now i :: (b ++ .poll t none :: c)) = evsOf a ++ evsOf b ++ evsOf c := by
        simp [evsOf]
      rw [this, hpq]; simp
    have halla : AllowedAll (fun m => delay m (pre ++ [.create n first])) (evsOf a) :=
      fun p e q hpq => hall' p e (q ++ evsOf b) (by rw [hpq]; simp)
    have hallb : AllowedAll (fun m => (evsOf a).foldl (Delay.step m) (delay m (pre ++ [.create n first]))) (evsOf b) := by
      intro p e q hpq
      have := hall' (evsOf a ++ p) e q (by rw [hpq]; simp)
      simpa only [List.foldl_append] using this
    obtain ⟨ya', v1, σ1, g1, g2, g3, g4, g5, _⟩ := streamRun_J (dur := dur) a hJ ht ho (fun e he => hl e (by simp [he])) halla
    rw [streamRun_append, g1] at h1
    simp only [Outcome.bind_ok, Outcome.bind_eq_ok] at h1
    obtain ⟨⟨y2, v2⟩, k1, k2⟩ := h1
    simp only [Outcome.ok.injEq, Prod.mk.injEq] at k2
    obtain ⟨k2, rfl⟩ := k2
    rw [hys] at k2
    obtain ⟨rfl, rfl⟩ := List.append_inj k2 (by rw [g2, hya])
    obtain ⟨z', v3, σ3, m1, m2, m3, m4, _, m6⟩ := streamStep_J (dur := dur) g3 g4 g5 (.poll now i) (by simp) (by simp)
    simp only [World.streamRun, m1, Outcome.bind_ok, Outcome.bind_eq_ok] at k1
    obtain ⟨⟨y4, v4⟩, k4, k3⟩ := k1
    simp only [Outcome.ok.injEq, Prod.mk.injEq, List.cons.injEq] at k3
    obtain ⟨⟨rfl, rfl⟩, rfl⟩ := k3
    exact silent b t c v3 v4 σ3 _ (now + dur) z yc m2 m3 m4 ((m6 now i rfl).1 (by simp)) (fun e he => hl e (by simp [he])) hallb k4
  · intro b t c z yc hle hys
    subst hle hys
    exact silent b t c w w' _ _ first z yc hJ ht ho hd (fun e he => hl e (by simp [he]))
      (fun p e q hpq => hall p e (q ++ evsOf c) (by
        have : evsOf (b ++ .poll t none :: c) = evsOf b ++ evsOf c := by simp [evsOf]
        rw [this, hpq]; simp)) h1

/-- A stream with a timeout of 10: an item at 4, nothing by 13, an error at 15, nothing by 24, an error at 25. -/
example : ∃ w ys w', World.new.run [.create 0 10] = .ok w ∧
    w.streamRun 0 10 [.poll 4 (some 'a'), .ev .pollTimer, .ev (.advance 13), .poll 13 none, .ev (.advance 15), .poll 15 none, .ev .pollTimer,
      .ev (.advance 24), .poll 24 none, .ev (.advance 25), .poll 25 none] = .ok (ys, w') ∧
    ys = [some (.inner 'a'), none, none, none, none, some .timedOut, none, none, none, none, some .timedOut] :=
  ⟨_, _, _, rfl, rfl, rfl⟩

/-- Violation of C100: when the timer is gone, the error comes at once, however long the timeout, and at every poll again. -/
theorem C100_gone_violates (dur : Nat) (times : List Nat) :
    ∃ w w', World.new.run [.create 0 dur, .dropTimer] = .ok w ∧ w.pollTimeout 0 (none : Option R) = some .timedOut ∧
      w.streamRun 0 dur (times.map fun t => .poll t (none : Option R)) = .ok (times.map fun _ => some .timedOut, w') := by
  obtain ⟨w, hw, hg, hp⟩ : ∃ w, World.new.run [.create 0 dur, .dropTimer] = .ok w ∧ w.gone = true ∧ w.pollDelay 0 = .readyErr :=
    ⟨_, rfl, rfl, by with_unfolding_all rfl⟩
  have key : ∀ (times : List Nat) (w : World), w.gone = true → w.pollDelay 0 = .readyErr →
      ∃ w', w.streamRun 0 dur (times.map fun t => .poll t (none : Option R)) = .ok (times.map fun _ => some .timedOut, w') := by
    intro times
    induction times with
    | nil => intro w _ _; exact ⟨w, rfl⟩
    | cons t times ih =>
      intro w hg hp
      have hres : (w.reset 0 (t + dur)).gone = true ∧ (w.reset 0 (t + dur)).pollDelay 0 = .readyErr := by
        unfold World.reset
        by_cases hh : w.held 0 = true
        · simp only [hh, hg, if_true]; exact ⟨trivial, hp⟩
        · simp only [hh, if_false]; exact ⟨hg, hp⟩
      obtain ⟨w', h⟩ := ih _ hres.1 hres.2
      exact ⟨w', by simp only [List.map_cons, World.streamRun, World.streamStep, World.pollStream, hp, Outcome.bind_ok, h]⟩
  obtain ⟨w', h⟩ := key times w hg hp
  exact ⟨w, w', hw, by simp only [World.pollTimeout, hp], h⟩

end Props
end Verif
