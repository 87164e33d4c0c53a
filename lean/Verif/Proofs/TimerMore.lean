import Verif.Proofs.Timer

set_option linter.unusedSimpArgs false
set_option linter.unusedVariables false

namespace Verif
namespace Timer
open TimerHeap Spec.TimerHeap
open Spec.Timer (Delay delay Allowed Program Touches Reached Interleave IEv intervalRun)

/-! ## The next event -/

theorem entries_iff {w : World} {σ : Nat → Delay} (hJ : J w σ) (ht : w.taken = []) (hl : w.list = []) (d : Nat) :
    (∃ k e, contents w.heap k = some e ∧ e.due = d) ↔ ∃ n, σ n = .live d true false := by
  constructor
  · rintro ⟨k, e, hk, rfl⟩
    have hsl := (hJ.slot e.node k).2 ⟨e, hk, rfl⟩
    refine ⟨e.node, ?_⟩
    rcases hσ : σ e.node with _ | ⟨d, s, f⟩ | _
    · have := (hJ.absent _ hσ).1; rw [hsl] at this; cases this
    · obtain ⟨_, _, g, _, a4, _, a6, _⟩ := hJ.live _ d s f hσ
      have hs : s = true := a4.2 (by simp [ht, hl])
      subst hs
      have := a6 k e hk rfl
      simp only [if_true] at this
      obtain ⟨h1, h2⟩ := this
      rw [h2]
      congr 1
      rw [h1]
    · have := (hJ.dropped _ hσ).2 (by simp [ht, hl]); rw [hsl] at this; cases this
  · rintro ⟨n, hn⟩
    obtain ⟨_, _, g, _, _, _, _, a7⟩ := hJ.live _ _ _ _ hn
    obtain ⟨k, hk⟩ := a7 rfl rfl
    exact ⟨k, _, hk, rfl⟩

theorem nextEvent_J {w : World} {σ : Nat → Delay} (hJ : J w σ) (ht : w.taken = []) (hl : w.list = []) :
    (w.nextEvent = none ∧ ∀ n d, σ n ≠ .live d true false) ∨
    ∃ t, w.nextEvent = some t ∧ (∃ n, σ n = .live t true false) ∧ ∀ n d, σ n = .live d true false → t ≤ d := by
  unfold World.nextEvent
  rcases pop_spec le_total hJ.heap with ⟨h1, _, h3⟩ | ⟨s, e, _, h1, _, _, h4, _⟩
  · refine Or.inl ⟨by rw [h1]; rfl, fun n d hn => ?_⟩
    obtain ⟨k, e, hk, _⟩ := (entries_iff hJ ht hl d).2 ⟨n, hn⟩
    rw [h3 k] at hk; cases hk
  · refine Or.inr ⟨e.due, by rw [h1]; rfl, (entries_iff hJ ht hl _).1 ⟨s, e, h4.1, rfl⟩, fun n d hn => ?_⟩
    obtain ⟨k, e', hk, rfl⟩ := (entries_iff hJ ht hl d).2 ⟨n, hn⟩
    have := h4.2 k e' hk
    simpa only [HeapTimer.le, decide_eq_true_eq] using this

/-! ## Dropping the timer -/

/-- The state word with the second bit set. -/
def orTwo (s : Nat) : Nat := if s / 2 % 2 = 1 then s else s + 2

theorem orTwo_idem (s : Nat) : orTwo (orTwo s) = orTwo s := by
  unfold orTwo
  by_cases h : s / 2 % 2 = 1
  · rw [if_pos h, if_pos h]
  · rw [if_neg h, if_pos (by omega)]

theorem dropList_spec : ∀ (l : List Nat) (w : World), l.Nodup → (∀ n ∈ l, (w.node n).enqueued = true) →
    ∃ w', World.dropList l w = .ok w' ∧ w'.heap = w.heap ∧ w'.held = w.held ∧ w'.gone = w.gone ∧
      ∀ k, (w'.node k).state = if k ∈ l then orTwo (w.node k).state else (w.node k).state
  | [], w, _, _ => ⟨w, rfl, rfl, rfl, rfl, by simp⟩
  | n :: l, w, hn, he => by
    rw [List.nodup_cons] at hn
    obtain ⟨w', e1, e2, e3, e4, e5⟩ := dropList_spec l ((w.upd n fun x => { x with enqueued := false }).invalidate n) hn.2 (by
      intro m hm
      have hne : m ≠ n := by rintro rfl; exact hn.1 hm
      simp only [World.invalidate, upd_node, hne, if_false]
      exact he m (List.mem_cons_of_mem _ hm))
    refine ⟨w', ?_, e2, e3, e4, ?_⟩
    · rw [World.dropList, if_pos (he n List.mem_cons_self)]; exact e1
    · intro k
      rw [e5 k]
      by_cases e : k = n
      · subst e
        rw [if_neg hn.1]
        simp [World.invalidate, orTwo]
      · simp [World.invalidate, e]

theorem dropHeap_spec : ∀ (fuel : Nat) (w : World), Inv HeapTimer.le w.heap → w.heap.items.length < fuel →
    ∃ w', World.dropHeap fuel w = .ok w' ∧ w'.held = w.held ∧ w'.gone = w.gone ∧
      ∀ k, ((∃ s e, contents w.heap s = some e ∧ e.node = k) → (w'.node k).state = orTwo (w.node k).state) ∧
        ((¬ ∃ s e, contents w.heap s = some e ∧ e.node = k) → (w'.node k).state = (w.node k).state) := by
  intro fuel
  induction fuel with
  | zero => intro w _ h; omega
  | succ fuel ih =>
    intro w hi hlen
    rcases pop_spec le_total hi with ⟨_, h2, h3⟩ | ⟨s, e, h', _, h2, h3, h4, h5, h6⟩
    · refine ⟨w, ?_, rfl, rfl, fun k => ⟨?_, fun _ => rfl⟩⟩
      · rw [World.dropHeap, h2]; rfl
      · rintro ⟨s, e, hs, _⟩; rw [h3 s] at hs; cases hs
    · obtain ⟨w', e1, e2, e3, e4⟩ := ih ({ w with heap := h' }.invalidate e.node) h3 (by show h'.items.length < fuel; omega)
      refine ⟨w', ?_, e2, e3, fun k => ?_⟩
      · rw [World.dropHeap, h2]; exact e1
      · have hst : (({ w with heap := h' } : World).invalidate e.node).node k =
            if k = e.node then { w.node k with state := orTwo (w.node k).state } else w.node k := by
          simp only [World.invalidate, upd_node, orTwo]
        obtain ⟨a1, a2⟩ := e4 k
        rw [hst] at a1 a2
        have hex : (∃ s e', contents ({ w with heap := h' } : World).heap s = some e' ∧ e'.node = k) →
            ∃ s e', contents w.heap s = some e' ∧ e'.node = k := by
          rintro ⟨s', e', hs', hk⟩
          rw [h5] at hs'
          dsimp only at hs'
          split at hs'
          · cases hs'
          · exact ⟨s', e', hs', hk⟩
        constructor
        · rintro ⟨s', e', hs', hk⟩
          by_cases hke : k = e.node
          · simp only [hke, if_true] at a1 a2 ⊢
            by_cases hx : ∃ s e', contents h' s = some e' ∧ e'.node = e.node
            · rw [a1 hx, orTwo_idem]
            · exact a2 hx
          · simp only [hke, if_false] at a1
            refine a1 ⟨s', e', ?_, hk⟩
            show contents h' s' = some e'
            rw [h5]
            dsimp only
            rw [if_neg]
            · exact hs'
            · rintro rfl
              rw [h4.1] at hs'; injection hs' with hs'
              exact hke (by rw [hs']; exact hk.symm)
        · intro hno
          have hke : k ≠ e.node := by rintro rfl; exact hno ⟨s, e, h4.1, rfl⟩
          simp only [hke, if_false] at a2
          exact a2 (fun h => hno (hex h))

theorem dropTimer_J {w : World} {σ : Nat → Delay} (hJ : J w σ) (ht : w.taken = []) :
    ∃ w', w.dropTimer = .ok w' ∧ w'.gone = true ∧ ∀ n d s f, σ n = .live d s f →
      w'.pollDelay n = if f then .readyOk else .readyErr := by
  have hnd := hJ.nodup
  have henq := hJ.enq
  simp only [ht, List.append_nil] at hnd henq
  obtain ⟨w1, e1, e2, e3, e4, e5⟩ := dropList_spec w.list { w with list := [] } hnd (fun n hn => (henq n).1 hn)
  obtain ⟨w2, f1, f2, f3, f4⟩ := dropHeap_spec (w1.heap.items.length + 1) w1 (by rw [e2]; exact hJ.heap) (Nat.lt_succ_self _)
  refine ⟨{ w2 with gone := true }, ?_, rfl, ?_⟩
  · unfold World.dropTimer
    rw [if_neg (by simp [hJ.gone]), e1]
    simp only [Outcome.bind_ok, f1]
  · intro n d s f hσ
    obtain ⟨a1, a2, g, a3, a4, a5, a6, a7⟩ := hJ.live n d s f hσ
    simp only [ht, List.append_nil] at a4
    have hheld : w2.held n = true := by rw [f2, e3]; exact a1
    have hst1 := e5 n
    simp only at hst1
    unfold World.pollDelay
    simp only [hheld, if_true]
    cases f with
    | true =>
      have hs := a5 rfl
      subst hs
      have hnl : n ∉ w.list := a4.1 rfl
      rw [if_neg hnl] at hst1
      have hno : ¬ ∃ s e, contents w1.heap s = some e ∧ e.node = n := by
        rintro ⟨s, e, hs, hn⟩
        rw [e2] at hs
        have := a6 s e hs hn
        simp at this
      rw [(f4 n).2 hno, hst1, a3]
      simp only [if_true]
      rw [if_pos (by omega)]
    | false =>
      simp only [Bool.false_eq_true, if_false, Nat.add_zero] at a3
      have key : (w2.node n).state = 4 * g + 2 := by
        by_cases hx : ∃ s e, contents w1.heap s = some e ∧ e.node = n
        · rw [(f4 n).1 hx, hst1]
          split
          · rw [orTwo_idem, a3]; unfold orTwo; rw [if_neg (by omega)]
          · rw [a3]; unfold orTwo; rw [if_neg (by omega)]
        · rw [(f4 n).2 hx, hst1]
          have hs : s = false := by
            cases s
            · rfl
            · obtain ⟨k, hk⟩ := a7 rfl rfl
              exact absurd ⟨k, _, by rw [e2]; exact hk, rfl⟩ hx
          have hin : n ∈ w.list := by
            rcases Classical.em (n ∈ w.list) with h | h
            · exact h
            · have := a4.2 h; rw [hs] at this; cases this
          rw [if_pos hin, a3]; unfold orTwo; rw [if_neg (by omega)]
      rw [key, if_neg (by omega), if_pos (by omega)]
      rfl

/-! ## Smaller steps -/

theorem micros_append (w : World) : ∀ (a b : List Micro), w.micros (a ++ b) = (do
    let v ← w.micros a
    v.micros b) := by
  intro a
  induction a generalizing w with
  | nil => intro b; rfl
  | cons m a ih =>
    intro b
    simp only [List.cons_append, World.micros]
    rcases w.micro m with v | _ | _
    · simp only [Outcome.bind_ok]; exact ih v b
    · rfl
    · rfl

theorem micros_process : ∀ (k : Nat) (w : World), w.micros ((List.replicate k [Micro.pick, Micro.apply]).flatten) = World.process k w
  | 0, w => rfl
  | k + 1, w => by
    simp only [List.replicate_succ, List.flatten_cons, List.cons_append, List.nil_append, World.micros, World.micro, World.process]
    rcases w.pick with v | _ | _
    · simp only [Outcome.bind_ok]
      rcases v.apply with u | _ | _
      · simp only [Outcome.bind_ok]; exact micros_process k u
      · rfl
      · rfl
    · rfl
    · rfl

/-! ## Intervals -/

theorem durationToNanos_eq (d : Nat) : durationToNanos d = if d < 2 ^ 64 then some d else none := by
  unfold durationToNanos
  have h1 : d / 1000000000 * 1000000000 + d % 1000000000 = d := by omega
  rw [h1]
  by_cases h : d < 2 ^ 64
  · rw [if_pos ⟨by omega, h⟩, if_pos h]
  · rw [if_neg (fun h' => h h'.2), if_neg h]

theorem nextInterval_ok {prev now i t : Nat} (h : nextInterval prev now i = .ok t) :
    ∃ k, 1 ≤ k ∧ t = prev + k * i ∧ now < t ∧ ∀ j, 1 ≤ j → now < prev + j * i → t ≤ prev + j * i := by
  unfold nextInterval at h
  split at h
  · rename_i hlt
    injection h with h
    subst h
    refine ⟨1, Nat.le_refl 1, by simp, hlt, fun j hj _ => ?_⟩
    have := Nat.mul_le_mul_right i hj
    omega
  · rename_i hge
    rw [durationToNanos_eq, durationToNanos_eq] at h
    split at h
    · cases h
    · rename_i spent hsp
      split at hsp
      · injection hsp with hsp
        subst hsp
        split at h
        · cases h
        · rename_i ns hns
          split at hns
          · injection hns with hns
            subst hns
            split at h
            · cases h
            · rename_i hi0
              split at h
              · injection h with h
                subst h
                have hpos : 0 < i := Nat.pos_of_ne_zero hi0
                have hdm := Nat.div_add_mod (now - prev) i
                have hml := Nat.mod_lt (now - prev) hpos
                refine ⟨(now - prev) / i + 1, Nat.le_add_left 1 _, by rw [Nat.mul_comm], ?_, ?_⟩
                · rw [Nat.mul_add, Nat.mul_one]; omega
                · intro j hj hlt
                  have : (now - prev) / i < j := by
                    rw [Nat.div_lt_iff_lt_mul hpos]; omega
                  have := Nat.mul_le_mul_left i (show (now - prev) / i + 1 ≤ j from this)
                  rw [Nat.mul_comm j i]; omega
              · cases h
          · cases hns
      · cases hsp

theorem nextInterval_panic (prev now i : Nat) :
    nextInterval prev now i = .panic ↔ prev + i ≤ now ∧ (i = 0 ∨ 2 ^ 64 ≤ now - prev ∨ 2 ^ 32 ≤ (now - prev) / i + 1) := by
  unfold nextInterval
  by_cases h1 : prev + i > now
  · rw [if_pos h1]
    simp only [reduceCtorEq, false_iff]
    omega
  · rw [if_neg h1, durationToNanos_eq, durationToNanos_eq]
    have h1' : prev + i ≤ now := by omega
    by_cases h2 : now - prev < 2 ^ 64
    · have h3 : i < 2 ^ 64 := by omega
      simp only [h2, h3, if_true, h1', true_and]
      by_cases h4 : i = 0
      · simp [h4]
      · simp only [h4, if_false, false_or]
        generalize (now - prev) / i + 1 = q
        by_cases h5 : q < 2 ^ 32
        · rw [if_pos h5]
          constructor
          · intro h; cases h
          · rintro (h | h)
            · exact absurd h2 (Nat.not_lt.2 h)
            · exact absurd h5 (Nat.not_lt.2 h)
        · rw [if_neg h5]
          exact ⟨fun _ => Or.inr (Nat.not_lt.1 h5), fun _ => rfl⟩
    · simp only [h2, if_false, h1', true_and]
      exact ⟨fun _ => Or.inr (Or.inl (Nat.not_lt.1 h2)), fun _ => trivial⟩

theorem nextInterval_ne_err (prev now i : Nat) : nextInterval prev now i ≠ .err := by
  unfold nextInterval
  generalize durationToNanos (now - prev) = a
  generalize durationToNanos i = b
  by_cases h : prev + i > now
  · rw [if_pos h]; intro h'; cases h'
  · rw [if_neg h]
    cases a with
    | none => intro h'; cases h'
    | some a =>
      cases b with
      | none => intro h'; cases h'
      | some b =>
        dsimp only
        by_cases h0 : b = 0
        · rw [if_pos h0]; intro h'; cases h'
        · rw [if_neg h0]
          by_cases h1 : a / b + 1 < 2 ^ 32
          · rw [if_pos h1]; intro h'; cases h'
          · rw [if_neg h1]; intro h'; cases h'

/-- An interval with the delays `σ`. -/
theorem pollInterval_J {w : World} {σ : Nat → Delay} (hJ : J w σ) (ht : w.taken = []) {n d i now : Nat} {s f : Bool}
    (h : σ n = .live d s f) {r : Bool × World} (hr : w.pollInterval n i now = .ok r) :
    (f = false ∧ r = (false, w)) ∨
    ∃ t, f = true ∧ nextInterval d now i = .ok t ∧ r = (true, w.reset n t) ∧ w.step (.reset n t) = .ok (w.reset n t) ∧
      (w.reset n t).when_ n = t := by
  unfold World.pollInterval at hr
  rw [pollDelay_live hJ h] at hr
  cases f with
  | false => simp only [Bool.false_eq_true, if_false] at hr; injection hr with hr; exact Or.inl ⟨rfl, hr.symm⟩
  | true =>
    simp only [if_true] at hr
    rw [hJ.whn n d s true h] at hr
    rcases hn : nextInterval d now i with t | _ | _
    · rw [hn] at hr
      simp only [Outcome.bind_ok] at hr
      injection hr with hr
      refine Or.inr ⟨t, rfl, rfl, hr.symm, rfl, ?_⟩
      exact (reset_J hJ (due := t) h).whn n t false false (by simp [put])
    · rw [hn] at hr; cases hr
    · rw [hn] at hr; cases hr

theorem program_prefix {a b : List Ev} (h : Program (a ++ b)) : Program a := by
  intro pre e post he
  exact h pre e (post ++ b) (by rw [he]; simp)

/-- `first` is the first deadline; the deadline now is `k` intervals later and at most `k` items were yielded; the last item was due. -/
theorem intervalRun_J {n i first : Nat} : ∀ (l : List IEv) (w : World) (pre tr0 : List Ev) (y0 k : Nat) (s f : Bool),
    (∀ e, .ev e ∈ l → ¬ Touches n e) → J w (fun m => delay m (pre ++ tr0)) → w.taken = [] →
    delay n (pre ++ tr0) = .live (first + k * i) s f → y0 ≤ k →
    (f = true → ∃ now, .advance now ∈ tr0 ∧ first + k * i ≤ now) →
    (0 < y0 → ∃ now, .advance now ∈ tr0 ∧ first + (y0 - 1) * i ≤ now) →
    ∀ tr y w', intervalRun n i w l = .ok (tr, y, w') → Program (pre ++ tr0 ++ tr) →
    w.run tr = .ok w' ∧ (∃ k' s' f', delay n (pre ++ tr0 ++ tr) = .live (first + k' * i) s' f' ∧ y0 + y ≤ k') ∧
      (0 < y0 + y → ∃ now, .advance now ∈ tr0 ++ tr ∧ first + (y0 + y - 1) * i ≤ now)
  | [], w, pre, tr0, y0, k, s, f, _, hJ, ht, hd, hy, hf, ha, tr, y, w', hr, hp => by
    simp only [intervalRun, Outcome.ok.injEq, Prod.mk.injEq] at hr
    obtain ⟨rfl, rfl, rfl⟩ := hr
    refine ⟨rfl, ⟨k, s, f, by simpa using hd, by omega⟩, by simpa using ha⟩
  | .ev e :: l, w, pre, tr0, y0, k, s, f, hl, hJ, ht, hd, hy, hf, ha, tr, y, w', hr, hp => by
    simp only [intervalRun] at hr
    rcases hs : w.step e with w1 | _ | _
    · rw [hs] at hr
      simp only [Outcome.bind_ok] at hr
      rcases hi : intervalRun n i w1 l with ⟨tr1, y1, w2⟩ | _ | _
      · rw [hi] at hr
        simp only [Outcome.bind_ok, Outcome.ok.injEq, Prod.mk.injEq] at hr
        obtain ⟨rfl, rfl, rfl⟩ := hr
        have hal := hp (pre ++ tr0) e tr1 (by simp)
        obtain ⟨w1', e1, e2, e3⟩ := step_J hJ ht hal
        rw [hs] at e1
        injection e1 with e1
        subst e1
        have hdel : (fun m => delay m (pre ++ (tr0 ++ [e]))) = fun m => (delay m (pre ++ tr0)).step m e := by
          funext m; rw [← List.append_assoc, delay_append]
        have hnt := hl e (by simp)
        have hdn : delay n (pre ++ (tr0 ++ [e])) = (Delay.live (first + k * i) s f).step n e := by
          rw [← List.append_assoc, delay_append, hd]
        obtain ⟨s', f', hst⟩ := step_untouched (n := n) (d := first + k * i) (s := s) (f := f) hnt
        have hf' : f' = true → ∃ now, .advance now ∈ tr0 ++ [e] ∧ first + k * i ≤ now := by
          intro hft
          by_cases hff : f = true
          · obtain ⟨now, h1, h2⟩ := hf hff
            exact ⟨now, by simp [h1], h2⟩
          · cases e with
            | advance now =>
              simp only [Delay.step, Delay.live.injEq] at hst
              obtain ⟨_, _, h3⟩ := hst
              rw [← h3] at hft
              simp only [Bool.or_eq_true, Bool.and_eq_true, decide_eq_true_eq] at hft
              rcases hft with h | ⟨_, h⟩
              · exact absurd h hff
              · exact ⟨now, by simp, h⟩
            | create m due => simp only [Delay.step, Delay.live.injEq] at hst; exact absurd (hst.2.2.trans hft) hff
            | reset m due =>
              simp only [Delay.step] at hst
              rw [if_neg (show ¬ m = n from hnt)] at hst
              cases hst; exact absurd hft hff
            | dropDelay m =>
              simp only [Delay.step] at hst
              rw [if_neg (show ¬ m = n from hnt)] at hst
              cases hst; exact absurd hft hff
            | pollTimer => simp only [Delay.step, Delay.live.injEq] at hst; exact absurd (hst.2.2.trans hft) hff
            | dropTimer => simp only [Delay.step, Delay.live.injEq] at hst; exact absurd (hst.2.2.trans hft) hff
        obtain ⟨c1, c2, c3⟩ := intervalRun_J l w1 pre (tr0 ++ [e]) y0 k s' f' (fun e' he' => hl e' (by simp [he']))
          (by rw [hdel]; exact e2) e3 (by rw [hdn]; exact hst) hy hf'
          (fun h => by obtain ⟨now, h1, h2⟩ := ha h; exact ⟨now, by simp [h1], h2⟩) tr1 y1 w2 hi (by simpa using hp)
        refine ⟨by simp [World.run, hs, c1], ?_, ?_⟩
        · simpa using c2
        · simpa using c3
      · rw [hi] at hr; cases hr
      · rw [hi] at hr; cases hr
    · rw [hs] at hr; cases hr
    · rw [hs] at hr; cases hr
  | .poll now :: l, w, pre, tr0, y0, k, s, f, hl, hJ, ht, hd, hy, hf, ha, tr, y, w', hr, hp => by
    simp only [intervalRun] at hr
    rcases hpi : w.pollInterval n i now with ⟨item, w1⟩ | _ | _
    · rw [hpi] at hr
      simp only [Outcome.bind_ok] at hr
      rcases hi : intervalRun n i w1 l with ⟨tr1, y1, w2⟩ | _ | _
      · rw [hi] at hr
        simp only [Outcome.bind_ok, Outcome.ok.injEq] at hr
        rcases pollInterval_J hJ ht hd hpi with ⟨rfl, hrr⟩ | ⟨t, rfl, hn, hrr, hstep, hwhen⟩
        · injection hrr with h1 h2
          subst h1; subst h2
          simp only [Bool.false_eq_true, if_false, Prod.mk.injEq] at hr
          obtain ⟨rfl, rfl, rfl⟩ := hr
          exact intervalRun_J l w1 pre tr0 y0 k s false (fun e' he' => hl e' (by simp [he'])) hJ ht hd hy hf ha _ _ _ hi hp
        · injection hrr with h1 h2
          subst h1; subst h2
          simp only [if_true, Prod.mk.injEq, hwhen] at hr
          obtain ⟨rfl, rfl, rfl⟩ := hr
          obtain ⟨m, hm1, hm2, _, _⟩ := nextInterval_ok hn
          have hal := hp (pre ++ tr0) (.reset n t) tr1 (by simp)
          obtain ⟨w1', e1, e2, e3⟩ := step_J hJ ht hal
          rw [hstep] at e1
          injection e1 with e1
          subst e1
          have hdel : (fun m => delay m (pre ++ (tr0 ++ [Ev.reset n t]))) = fun m => (delay m (pre ++ tr0)).step m (.reset n t) := by
            funext m; rw [← List.append_assoc, delay_append]
          have hdn : delay n (pre ++ (tr0 ++ [Ev.reset n t])) = .live (first + (k + m) * i) false false := by
            rw [← List.append_assoc, delay_append, hd]
            simp only [Delay.step, if_true]
            rw [hm2, Nat.add_mul]
            congr 1
            omega
          obtain ⟨nw, hn1, hn2⟩ := hf rfl
          obtain ⟨c1, c2, c3⟩ := intervalRun_J l (w.reset n t) pre (tr0 ++ [.reset n t]) (y0 + 1) (k + m) false false
            (fun e' he' => hl e' (by simp [he'])) (by rw [hdel]; exact e2) e3 hdn (by omega) (by simp)
            (fun _ => ⟨nw, by simp [hn1], by
              have := Nat.mul_le_mul_right i hy
              simp only [Nat.add_sub_cancel]
              omega⟩) tr1 y1 w2 hi (by simpa using hp)
          refine ⟨by simp [World.run, hstep, c1], ?_, ?_⟩
          · obtain ⟨k', s', f', h1, h2⟩ := c2
            exact ⟨k', s', f', by simpa using h1, by omega⟩
          · intro _
            obtain ⟨nw', h1, h2⟩ := c3 (by omega)
            refine ⟨nw', by simpa using h1, ?_⟩
            have : y0 + 1 + y1 - 1 = y0 + (y1 + 1) - 1 := by omega
            rw [← this]; exact h2
      · rw [hi] at hr; cases hr
      · rw [hi] at hr; cases hr
    · rw [hpi] at hr; cases hr
    · rw [hpi] at hr; cases hr

end Timer
end Verif
