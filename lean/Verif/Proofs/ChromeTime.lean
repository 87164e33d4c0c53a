import Verif.Proofs.ChromeFirst

set_option linter.unusedSimpArgs false
set_option linter.unusedVariables false

/-!
# Scans with Chrome: the timeout, the limit on requests, the number of requests
-/

namespace Verif.Chrome
open Verif.Spec.Chrome
open Verif.Discovery (ins mem_ins ins_nodup)

variable {U : Type} [DecidableEq U]

theorem Run.append {cap : Nat} {s s' s'' : St U} {tr tr' : List (Ev U)} (h : Run cap s tr s') (h' : Run cap s' tr' s'') :
    Run cap s (tr ++ tr') s'' := by
  induction h' with
  | nil => simpa using h
  | @snoc tr' t e t' _ hs ih => rw [← List.append_assoc]; exact ih.snoc hs

theorem run_snoc {cap : Nat} {s₀ s : St U} {tr : List (Ev U)} {e : Ev U} (h : Run cap s₀ (tr ++ [e]) s) :
    ∃ t, Run cap s₀ tr t ∧ Step cap t e s := by
  generalize hq : tr ++ [e] = l at h
  cases h with
  | nil => simp at hq
  | @snoc tr' t e' _ h1 h2 =>
    obtain ⟨rfl, h3⟩ := List.append_inj' hq rfl
    cases h3
    exact ⟨t, h1, h2⟩

theorem run_cons {cap : Nat} {s₀ s : St U} {tr : List (Ev U)} {e : Ev U} (h : Run cap s₀ (e :: tr) s) :
    ∃ t, Step cap s₀ e t ∧ Run cap t tr s := by
  generalize hq : e :: tr = l at h
  induction h generalizing tr with
  | nil => cases hq
  | @snoc tr' t e' t' h1 h2 ih =>
    cases tr' with
    | nil =>
      simp at hq
      obtain ⟨rfl, rfl⟩ := hq
      have h3 : s₀ = t := by
        generalize hl : ([] : List (Ev U)) = l at h1
        cases h1 with
        | nil => rfl
        | snoc => simp at hl
      subst h3
      exact ⟨t', h2, .nil⟩
    | cons x l =>
      simp at hq
      obtain ⟨rfl, rfl⟩ := hq
      obtain ⟨q, g1, g2⟩ := ih rfl
      exact ⟨q, g1, g2.snoc h2⟩

theorem run_split {cap : Nat} {s₀ s : St U} {tr tr' : List (Ev U)} (h : Run cap s₀ (tr ++ tr') s) :
    ∃ t, Run cap s₀ tr t ∧ Run cap t tr' s := by
  induction tr generalizing s₀ with
  | nil => exact ⟨s₀, .nil, h⟩
  | cons e tr ih =>
    obtain ⟨q, g1, g2⟩ := run_cons h
    obtain ⟨t, k1, k2⟩ := ih g2
    exact ⟨t, .cons g1 k1, k2⟩

/-- After the timeout no `/info` request is pending. -/
def Timed (s : St U) : Prop :=
  s.main ≠ .idle → (s.addPeers = true → s.late = []) ∧ (s.addPeers = false → ∀ u, Req.info u ∉ s.pending)

theorem timed_step {cap : Nat} {s s' : St U} {e : Ev U} (hs : Step cap s e s') (h : Timed s) : Timed s' := by
  cases hs with
  | call h1 h2 => exact fun _ => ⟨fun _ => rfl, fun h => (nomatch h)⟩
  | ask h1 => exact h
  | answer h1 => exact h
  | die h1 => exact h
  | post h1 => exact h
  | recv h1 h2 => exact fun _ => h (by simp [h1])
  | skip h1 h2 h3 =>
    exact fun _ => ⟨(h (by simp [h1])).1, fun ha u hu => (h (by simp [h1])).2 ha u (List.mem_of_mem_erase hu)⟩
  | push h1 h2 h3 h4 h5 =>
    exact fun _ => ⟨(h (by simp [h1])).1, fun ha u hu => (h (by simp [h1])).2 ha u (List.mem_of_mem_erase hu)⟩
  | drained h1 h2 => exact fun _ => h (by simp [h1])
  | @handle m h1 h2 =>
    intro _
    obtain ⟨i1, i2⟩ := h (by simp [h1])
    cases m <;> simp only [leave, effect]
    all_goals try exact ⟨i1, i2⟩
    · refine ⟨i1, fun ha u hu => ?_⟩
      rcases List.mem_cons.1 hu with hu | hu
      · cases hu
      · exact i2 ha u hu
    · cases ha : s.addPeers with
      | true => simp only [ha, if_true]; exact ⟨fun _ => i1 ha, fun h => (nomatch h)⟩
      | false => simp only [ha, Bool.false_eq_true, if_false]; exact ⟨fun h => (nomatch h), fun _ => i2 ha⟩
  | underflow h1 h2 => exact fun _ => h (by simp [h1])
  | timeout h1 h2 => exact fun _ => ⟨fun h => (nomatch h), fun _ => by simp⟩
  | finish h1 => exact fun h => absurd rfl h

theorem timed {cap : Nat} {seeds : List U} {tr : List (Ev U)} {s : St U} (h : Run cap (init seeds) tr s) : Timed s := by
  induction h with
  | nil => exact fun h => absurd rfl h
  | snoc _ hs ih => exact timed_step hs ih

/-- Without a timeout nothing is left for later. -/
theorem untimed {cap : Nat} {seeds : List U} {tr₁ tr : List (Ev U)} {s₀ s : St U} (h0 : Run cap (init seeds) tr₁ s₀)
    (ha : s₀.addPeers = true) (hl : s₀.late = []) (hr : Run cap s₀ tr s) (ht : Ev.timeout ∉ tr) :
    s.addPeers = true ∧ s.late = [] ∧ (Ev.finish ∈ tr → s.main = .idle ∧ s.pending = []) := by
  induction hr with
  | nil => exact ⟨ha, hl, fun h => (nomatch h)⟩
  | @snoc tr s e s' hr hs ih =>
    have h := h0.append hr
    rw [List.mem_append, not_or, List.mem_singleton] at ht
    obtain ⟨i1, i2, i3⟩ := ih ht.1
    have hq := atIdle h
    have hfin : ∀ {P : Prop}, e ≠ .finish → (s.main = .idle → s.pending = [] → False) → Ev.finish ∈ tr ++ [e] → P := by
      intro P h1 h2 h3
      rcases List.mem_append.1 h3 with h3 | h3
      · exact (h2 (i3 h3).1 (i3 h3).2).elim
      · exact absurd (List.mem_singleton.1 h3).symm h1
    cases hs with
    | call h1 h2 =>
      refine ⟨rfl, rfl, hfin (by simp) ?_⟩
      intro _ h; rw [h] at h2; cases h2.1
    | ask h1 =>
      refine ⟨i1, i2, hfin (by simp) ?_⟩
      intro h _; rw [(hq h).1] at h1; cases h1
    | answer h1 =>
      refine ⟨i1, i2, hfin (by simp) ?_⟩
      intro h _; rw [(hq h).2.1] at h1; cases h1
    | die h1 =>
      refine ⟨i1, i2, hfin (by simp) ?_⟩
      intro h _; rw [(hq h).2.1] at h1; cases h1
    | post h1 =>
      refine ⟨i1, i2, hfin (by simp) ?_⟩
      intro h _
      have := (hq h).2.2.2.2.2
      simp [held, h1] at this
    | recv h1 h2 => exact ⟨i1, i2, hfin (by simp) fun h _ => by rw [h] at h1; cases h1⟩
    | skip h1 h2 h3 => exact ⟨i1, i2, hfin (by simp) fun h _ => by rw [h] at h1; cases h1⟩
    | push h1 h2 h3 h4 h5 => exact ⟨i1, i2, hfin (by simp) fun h _ => by rw [h] at h1; cases h1⟩
    | drained h1 h2 => exact ⟨i1, i2, hfin (by simp) fun h _ => by rw [h] at h1; cases h1⟩
    | @handle m h1 h2 =>
      refine ⟨?_, ?_, hfin (by simp) fun h _ => by rw [h] at h1; cases h1⟩
      · show (effect _ m).addPeers = true
        rw [(effect_msgs _ m).2.2.2.2.2.1]; exact i1
      · cases m <;> simp [leave, effect, i1, i2]
    | underflow h1 h2 => exact ⟨i1, i2, hfin (by simp) fun h _ => by rw [h] at h1; cases h1⟩
    | timeout h1 h2 => exact absurd rfl ht.2
    | finish h1 => exact ⟨i1, rfl, fun _ => ⟨rfl, i2⟩⟩

/-- The limit is that of the last call. -/
theorem limit_call {cap : Nat} {seeds : List U} {tr : List (Ev U)} {s : St U} (h : Run cap (init seeds) tr s) :
    (s = init seeds ∧ tr = []) ∨ ∃ n r, Ev.call n r ∈ tr ∧ s.limit = n := by
  induction h with
  | nil => exact Or.inl ⟨rfl, rfl⟩
  | @snoc tr s e s' h hs ih =>
    right
    rcases ih with ⟨rfl, rfl⟩ | ⟨n, r, h1, h2⟩
    · have h2 := no_call (Run.nil.snoc hs : Run cap (init seeds) ([] ++ [e]) s')
      cases hs with
      | @call n r _ _ => exact ⟨n, r, by simp, rfl⟩
      | _ => have := (h2 (by rfl)).1; simp at this
    · cases hs with
      | @call n r _ _ => exact ⟨n, r, by simp, rfl⟩
      | @handle m g1 g2 =>
        refine ⟨n, r, List.mem_append_left _ h1, ?_⟩
        show (effect _ m).limit = n
        rw [(effect_msgs _ m).2.2.2.2.2.2.1]; exact h2
      | _ => exact ⟨n, r, List.mem_append_left _ h1, h2⟩

/-- Once the good answer of `/info` is handled, the request for the peers stays somewhere. -/
theorem handled_where {cap : Nat} {seeds : List U} {tr : List (Ev U)} {s : St U} (h : Run cap (init seeds) tr s) {u : U}
    (hu : Ev.handle (.infoOk u) ∈ tr) : Where tr s (.all u) := by
  induction h with
  | nil => cases hu
  | @snoc tr s e s' h hs ih =>
    rcases List.mem_append.1 hu with hu | hu
    · rcases where_old hs (fun hi => ((content h).idleLate hi).1) (fun hd => ((nums h).done hd).2) (ih hu) with h | ⟨v, _, _, h⟩
      · exact h
      · cases h
    · rw [List.mem_singleton] at hu
      subst hu
      exact (where_handle hs (nums (h.snoc hs)).np).1 u rfl

theorem enq_mem {cap : Nat} {seeds : List U} {tr : List (Ev U)} {s : St U} (h : Run cap (init seeds) tr s) {u : U}
    (hu : Req.all u ∈ s.reqs ∨ Req.all u ∈ asked tr) : Ev.push (.all u) ∈ tr := by
  have hf := flow h
  have h1 := hf.enq (.all u)
  have h2 := hf.split (.all u)
  rw [List.count_eq_zero_of_not_mem (hf.callInfo u)] at h2
  have : 0 < (pushes tr).count (.all u) := by
    rcases hu with hu | hu
    · have := List.count_pos_iff.2 hu; omega
    · have := List.count_pos_iff.2 hu; omega
  have := List.count_pos_iff.1 this
  simp only [pushes, List.mem_filterMap] at this
  obtain ⟨e, h3, h4⟩ := this
  cases e <;> simp at h4
  subst h4
  exact h3

/-- A `/peers/all` request put off by the timeout stays put off. -/
theorem late_stays {cap : Nat} {seeds : List U} {tr tr' : List (Ev U)} {s s' : St U} (h : Run cap (init seeds) tr s) {u : U}
    (hi : s.main ≠ .idle) (hu : Req.all u ∈ s.late) (h' : Run cap s tr' s') :
    s'.main ≠ .idle ∧ s'.main ≠ .done ∧ Req.all u ∈ s'.late ∧ Ev.finish ∉ tr' := by
  have key : ∀ tr' s', Run cap s tr' s' → s'.main ≠ .idle ∧ Req.all u ∈ s'.late ∧ Ev.finish ∉ tr' := by
    intro tr' s' h'
    induction h' with
    | nil => exact ⟨hi, hu, by simp⟩
    | @snoc tr' t e t' ht hs ih =>
      obtain ⟨i1, i2, i3⟩ := ih
      have hnd : t.main ≠ .done := fun hd => (atDone (h.append ht) hd).2.2.2.2.1 u i2
      have hf : e ≠ .finish → Ev.finish ∉ tr' ++ [e] := by
        intro h1 h2
        rcases List.mem_append.1 h2 with h2 | h2
        · exact i3 h2
        · exact h1 (List.mem_singleton.1 h2).symm
      cases hs with
      | call h1 h2 => exact absurd h1 i1
      | @handle m h1 h2 =>
        refine ⟨?_, ?_, hf (by simp)⟩
        · unfold leave; simp only []; split <;> simp
        · cases m <;> simp only [leave, effect]
          all_goals try exact i2
          split
          · exact i2
          · exact List.mem_append_right _ i2
      | timeout h1 h2 => exact ⟨i1, List.mem_append_right _ i2, hf (by simp)⟩
      | finish h1 => exact absurd h1 hnd
      | recv h1 h2 => exact ⟨by simp, i2, hf (by simp)⟩
      | drained h1 h2 => exact ⟨by simp, i2, hf (by simp)⟩
      | underflow h1 h2 => exact ⟨by simp, i2, hf (by simp)⟩
      | _ => exact ⟨i1, i2, hf (by simp)⟩
  obtain ⟨k1, k2, k3⟩ := key tr' s' h'
  exact ⟨k1, fun hd => (atDone (h.append h') hd).2.2.2.2.1 u k2, k2, k3⟩

/-! ## Small limits -/

theorem cost_two {l : List (Msg U)} (h : ∀ m ∈ l, m.cost ≠ 1) : 2 * loads l ≤ costs l := by
  induction l with
  | nil => simp
  | cons m l ih =>
    have h1 := ih fun m hm => h m (List.mem_cons_of_mem _ hm)
    have h2 := h m (List.mem_cons_self ..)
    have h3 : 2 * m.load ≤ m.cost := by cases m <;> simp [Msg.cost, Msg.load] at h2 ⊢
    simp
    omega

/-- Without aborted requests every message gives back two requests or none. -/
theorem no_abort {cap : Nat} {seeds : List U} {tr : List (Ev U)} {s : St U} (h : Run cap (init seeds) tr s)
    (ha : ∀ r, Ev.answer r .abort ∉ tr) : ∀ m ∈ held s, m.cost ≠ 1 := by
  induction h with
  | nil => simp [held, current, init]
  | @snoc tr s e s' h hs ih =>
    intro m hm
    rcases held_new hs hm with hm | ⟨r, a, rfl, hm⟩
    · exact ih (fun r hr => ha r (List.mem_append_left _ hr)) m hm
    · have h1 : a ≠ .abort := by rintro rfl; exact ha r (by simp)
      cases r <;> cases a <;> simp [replies] at hm h1
      all_goals first | (subst hm; simp [Msg.cost]) | (rcases hm with rfl | rfl <;> simp [Msg.cost])

/-- While a message is being dealt with, it counts. -/
theorem busy {cap : Nat} {seeds : List U} {tr : List (Ev U)} {s : St U} (h : Run cap (init seeds) tr s) {m : Msg U}
    (hm : s.main = .draining m) : 1 ≤ s.chrome ∧ ((∀ r, Ev.answer r .abort ∉ tr) → 2 ≤ s.chrome) := by
  have hn := (nums h).chrome
  have hheld : held s = m :: (s.msgs ++ s.outs.flatten) := by simp [held, current, hm]
  have hl : 1 ≤ loads (held s) ∨ 1 ≤ costs (held s) := by
    cases hp : m.isPeers with
    | true =>
      left
      cases m <;> simp [Msg.isPeers] at hp
      have := (pairs h).next (ps := _) (by rw [hheld]; exact List.mem_cons_self ..)
      rw [hheld, loads_cons]
      omega
    | false =>
      right
      rw [hheld, costs_cons]
      cases m <;> simp [Msg.isPeers, Msg.cost] at hp ⊢ <;> omega
  have hc := costs_le (held s)
  refine ⟨by omega, fun ha => ?_⟩
  have h2 := cost_two (no_abort h ha)
  rcases hl with hl | hl
  · omega
  · cases hp : m.isPeers with
    | true =>
      cases m <;> simp [Msg.isPeers] at hp
      have := (pairs h).next (ps := _) (by rw [hheld]; exact List.mem_cons_self ..)
      rw [hheld, loads_cons] at h2
      rw [hheld] at hn
      omega
    | false =>
      have h1 := no_abort h ha m (by rw [hheld]; exact List.mem_cons_self ..)
      have : 2 ≤ m.cost := by cases m <;> simp [Msg.isPeers, Msg.cost] at hp h1 ⊢
      rw [hheld, costs_cons] at hn
      omega

/-- With too small a limit no request but the first is sent. -/
theorem small {cap : Nat} {seeds : List U} {tr : List (Ev U)} {s : St U} (h : Run cap (init seeds) tr s)
    (hn : (∀ n r, Ev.call n r ∈ tr → n ≤ 2) ∨ ((∀ n r, Ev.call n r ∈ tr → n ≤ 3) ∧ ∀ r, Ev.answer r .abort ∉ tr)) :
    ∀ r, Ev.push r ∉ tr := by
  induction h with
  | nil => simp
  | @snoc tr s e s' h hs ih =>
    have hn' : (∀ n r, Ev.call n r ∈ tr → n ≤ 2) ∨ ((∀ n r, Ev.call n r ∈ tr → n ≤ 3) ∧ ∀ r, Ev.answer r .abort ∉ tr) := by
      rcases hn with hn | ⟨hn, ha⟩
      · exact Or.inl fun n r hm => hn n r (List.mem_append_left _ hm)
      · exact Or.inr ⟨fun n r hm => hn n r (List.mem_append_left _ hm), fun r hm => ha r (List.mem_append_left _ hm)⟩
    intro r hm
    rcases List.mem_append.1 hm with hm | hm
    · exact ih hn' r hm
    · rw [List.mem_singleton] at hm
      subst hm
      cases hs with
      | @push m r h1 h2 h3 h4 h5 =>
        obtain ⟨b1, b2⟩ := busy h h1
        rcases limit_call h with ⟨rfl, _⟩ | ⟨n, q, hc, hl⟩
        · cases h1
        · have h4 : s.limit > s.chrome ∧ s.limit - s.chrome ≥ 2 := h4
          rcases hn' with hn | ⟨hn, ha⟩
          · have := hn n q hc; omega
          · have := hn n q hc; have := b2 ha; omega

/-! ## The number of requests -/

def Msg.isOk : Msg U → Bool
  | .infoOk _ => true
  | _ => false

def nOk (l : List (Msg U)) : Nat := l.countP Msg.isOk

def Ev.isGood : Ev U → Bool
  | .answer (.all _) (.ok _) => true
  | _ => false

def nInfo (l : List (Req U)) : Nat := l.countP (fun r => !r.isAll)

@[simp] theorem nOk_append (k l : List (Msg U)) : nOk (k ++ l) = nOk k + nOk l := by simp [nOk]
@[simp] theorem nOk_nil : nOk ([] : List (Msg U)) = 0 := rfl
theorem nOk_cons (m : Msg U) (l) : nOk (m :: l) = nOk [m] + nOk l := by
  rw [← List.singleton_append, nOk_append]
@[simp] theorem nInfo_append (k l : List (Req U)) : nInfo (k ++ l) = nInfo k + nInfo l := by simp [nInfo]

/-- Good answers of `/peers/all` and whatever can still lead to one are no more than the `/info` requests sent. -/
theorem goods {cap : Nat} {seeds : List U} {tr : List (Ev U)} {s : St U} (h : Run cap (init seeds) tr s) :
    tr.countP Ev.isGood + s.tasks.length + s.reqs.length + nAll s.pending + nAll s.late + nOk (held s) ≤ nInfo (enq tr) := by
  induction h with
  | nil => simp [init, held, current, enq, nInfo]
  | @snoc tr s e s' h hs ih =>
    rw [enq_snoc, List.countP_append, nInfo_append]
    cases hs with
    | @call n r h1 h2 =>
      have hq := atIdle h h1
      have hp := nAll_erase h2.1
      have hr : nInfo [r] = 1 := by
        cases r with
        | info u => rfl
        | all u => exact absurd h2.1 (hq.2.2.2.1 u)
      simp only [held, current, h1, List.length_append, List.length_singleton, nAll_nil, List.nil_append] at ih ⊢
      rw [show nInfo (match (Ev.call n r : Ev U) with | .call _ r => [r] | .push r => [r] | _ => []) = 1 from hr]
      simp [Ev.isGood] at ih ⊢
      omega
    | ask h1 =>
      simp only [held, current] at ih ⊢
      rw [h1] at ih
      simp [Ev.isGood, nInfo] at ih ⊢
      omega
    | @answer r a h1 =>
      have hl := length_erase' h1
      have hrep : nOk (replies r a) + [Ev.answer r a].countP Ev.isGood ≤ 1 := by
        cases r <;> cases a <;> simp [replies, nOk, Ev.isGood, Msg.isOk]
      simp only [held, current, List.flatten_cons, nOk_append] at ih ⊢
      omega
    | die h1 =>
      have hl := length_erase' h1
      simp only [held, current] at ih ⊢
      simp [Ev.isGood, nInfo] at ih ⊢
      omega
    | @post m o pre suf h1 =>
      simp only [held, current] at ih ⊢
      rw [h1] at ih
      simp [Ev.isGood, nInfo] at ih ⊢
      rw [nOk_cons m (o ++ _)] at ih
      rw [nOk_cons m (pre.flatten ++ _)]
      simp at ih ⊢
      omega
    | @recv m rest h1 h2 =>
      simp only [held, current] at ih ⊢
      rw [h1, h2] at ih
      simp [Ev.isGood, nInfo] at ih ⊢
      exact ih
    | @skip m u h1 h2 h3 =>
      have hp := nAll_erase h2.1
      simp only [held, current] at ih ⊢
      simp [Ev.isGood, nInfo] at ih ⊢
      omega
    | @push m r h1 h2 h3 h4 h5 =>
      have hp := nAll_erase h2.1
      have hr : nInfo [r] + nAll [r] = 1 := by cases r <;> rfl
      simp only [held, current, List.length_append, List.length_singleton] at ih ⊢
      rw [show nInfo (match (Ev.push r : Ev U) with | .call _ r => [r] | .push r => [r] | _ => []) = nInfo [r] from rfl]
      have : [(Ev.push r : Ev U)].countP Ev.isGood = 0 := rfl
      omega
    | @drained m h1 h2 =>
      simp only [held, current, h1] at ih ⊢
      simp [Ev.isGood, nInfo] at ih ⊢
      omega
    | @handle m h1 h2 =>
      have he := effect_msgs { s with chrome := s.chrome - m.cost } m
      rw [held_leave]
      have hp : nAll (leave (effect { s with chrome := s.chrome - m.cost } m)).pending +
          nAll (leave (effect { s with chrome := s.chrome - m.cost } m)).late ≤ nAll s.pending + nAll s.late + nOk [m] := by
        have hz : ∀ ps : List U, nAll (ps.map Req.info) = 0 := by
          intro ps; simp [nAll, Req.isAll, List.countP_eq_zero]
        cases m <;> simp only [leave, effect]
        all_goals try omega
        · rw [nAll_all]; simp [nOk, Msg.isOk]; omega
        · split
          · simp only [nAll_append, hz]; omega
          · simp only [nAll_append, hz]; omega
      have e1 : (leave (effect { s with chrome := s.chrome - m.cost } m)).tasks = s.tasks := he.2.2.2.1
      have e2 : (leave (effect { s with chrome := s.chrome - m.cost } m)).reqs = s.reqs := he.2.2.1
      rw [e1, e2, he.1, he.2.1]
      have hh : nOk (held s) = nOk [m] + nOk (s.msgs ++ s.outs.flatten) := by
        simp only [held, current, h1, List.append_assoc, nOk_append]
      have : [(Ev.handle m : Ev U)].countP Ev.isGood = 0 := rfl
      show _ ≤ _
      simp only [] at hp ⊢
      omega
    | underflow h1 h2 => exact absurd rfl (nums (h.snoc (.underflow h1 h2))).np
    | timeout h1 h2 =>
      simp only [held, current, h1] at ih ⊢
      simp [Ev.isGood, nInfo] at ih ⊢
      omega
    | finish h1 =>
      have hd := atDone h h1
      simp only [held, current, h1] at ih ⊢
      simp [Ev.isGood, nInfo] at ih ⊢
      omega

theorem nInfo_enq (tr : List (Ev U)) : nInfo (enq tr) ≤ (calls tr).length + nInfo (pushes tr) := by
  induction tr with
  | nil => simp [enq, nInfo, calls, pushes]
  | cons e tr ih =>
    have h1 : nInfo (enq (e :: tr)) = nInfo (enq [e]) + nInfo (enq tr) := by
      rw [← List.singleton_append (x := e), enq, List.filterMap_append, nInfo_append]; rfl
    have h2 : calls (e :: tr) = calls [e] ++ calls tr := by
      rw [← List.singleton_append (x := e), calls, List.filterMap_append]; rfl
    have h3 : nInfo (pushes (e :: tr)) = nInfo (pushes [e]) + nInfo (pushes tr) := by
      rw [← List.singleton_append (x := e), pushes, List.filterMap_append, nInfo_append]; rfl
    have h4 : nInfo (enq [e]) ≤ (calls [e]).length + nInfo (pushes [e]) := by
      cases e <;> simp [enq, nInfo, calls, pushes]
      split <;> omega
    rw [h1, h2, h3, List.length_append]
    omega

theorem gain_sum (K : Nat) (tr : List (Ev U)) (hK : ∀ u ps, Ev.answer (.all u) (.ok ps) ∈ tr → ps.length ≤ K) :
    sumBy gain tr ≤ 19 * (calls tr).length + 17 * nInfo (pushes tr) + K * tr.countP Ev.isGood := by
  induction tr with
  | nil => simp
  | cons e tr ih =>
    have ih := ih fun u ps h => hK u ps (List.mem_cons_of_mem _ h)
    have h2 : calls (e :: tr) = calls [e] ++ calls tr := by
      rw [← List.singleton_append (x := e), calls, List.filterMap_append]; rfl
    have h3 : nInfo (pushes (e :: tr)) = nInfo (pushes [e]) + nInfo (pushes tr) := by
      rw [← List.singleton_append (x := e), pushes, List.filterMap_append, nInfo_append]; rfl
    have h5 : (e :: tr).countP Ev.isGood = [e].countP Ev.isGood + tr.countP Ev.isGood := by
      rw [← List.singleton_append (x := e), List.countP_append]
    have h4 : gain e ≤ 19 * (calls [e]).length + 17 * nInfo (pushes [e]) + K * [e].countP Ev.isGood := by
      cases e with
      | push r => cases r <;> simp [gain, nInfo, pushes, Req.isAll, calls]
      | call n r => simp [gain, calls]; omega
      | answer r a =>
        cases r <;> cases a <;> simp [gain, Ev.isGood]
        exact Nat.le_trans (hK _ _ (List.mem_cons_self ..)) (Nat.le_add_left ..)
      | _ => simp [gain]
    rw [h2, h3, h5, List.length_append, sumBy_cons, Nat.mul_add K]
    omega

/-! ## What can be reached -/

/-- Nodes asked for their peers were asked for their information. -/
theorem info_of_all {cap : Nat} {seeds : List U} {tr : List (Ev U)} {s : St U} (h : Run cap (init seeds) tr s) {u : U}
    (hu : Req.all u ∈ asked tr) : Req.info u ∈ asked tr := by
  obtain ⟨ps, hps⟩ := (content h).allSrc u (Or.inr (Or.inr (Or.inr hu)))
  exact (content h).ans1 _ _ hps

theorem reach_of_where {cap : Nat} {seeds : List U} {tr : List (Ev U)} {s : St U} (h : Run cap (init seeds) tr s)
    {net : U → Option (List U)} (hn : Follows net tr) (r : Req U) (hr : Where tr s r) : Spec.Discovery.Reach net seeds r.url := by
  induction h generalizing r with
  | nil =>
    rcases hr with hr | hr | hr | hr
    · simp [init] at hr
      obtain ⟨u, hu, rfl⟩ := hr
      exact .seed hu
    · cases hr
    · cases hr
    · cases hr
  | @snoc tr s e s' h hs ih =>
    have hn' : Follows net tr := ⟨fun u a hu => hn.1 u a (List.mem_append_left _ hu), fun u a hu => hn.2 u a (List.mem_append_left _ hu)⟩
    have ih := ih hn'
    have hheld : ∀ m, e = .handle m → s'.main ≠ .panicked → m ∈ held s := by
      rintro m rfl hnp
      cases hs with
      | handle h1 h2 => simp [held, current, h1]
      | underflow h1 h2 => exact absurd rfl hnp
    have hnp := (nums (h.snoc hs)).np
    rcases where_new hs hr with hr | ⟨u, he, rfl⟩ | ⟨ps, p, he, hp, rfl⟩
    · exact ih r hr
    · obtain ⟨qs, hqs⟩ := (content h).msgOk u (hheld _ he hnp)
      exact ih (.info u) (Or.inr (Or.inr (Or.inr ((content h).ans1 _ _ hqs))))
    · obtain ⟨u, hu⟩ := (content h).msgPeers ps (hheld _ he hnp)
      have h1 := ih (.all u) (Or.inr (Or.inr (Or.inr ((content h).ans1 _ _ hu))))
      have h2 := hn'.2 u _ hu
      cases hnet : net u with
      | none => rw [hnet] at h2; exact absurd rfl (h2 ps)
      | some qs =>
        rw [hnet] at h2
        cases (show Ans.ok ps = Ans.ok qs from h2)
        exact .peer h1 hnet hp

/-- With a single seed that answers, the call goes nowhere. -/
theorem single_quiet {cap : Nat} {a : U} {tr : List (Ev U)} {s : St U} (h : Run cap (init [a]) tr s) (ps : List U)
    (hps : Ev.answer (.info a) (.ok ps) ∈ tr) : s.main ≠ .done ∧ s.main ≠ .idle ∧ Ev.finish ∉ tr ∧ Ev.ask (.all a) ∉ tr := by
  have hask : ∀ tr s, Run cap (init [a]) tr s → Ev.ask (.all a) ∉ tr := by
    intro tr s h
    induction h with
    | nil => simp
    | @snoc tr s e s' h hs ih =>
      intro hm
      rcases List.mem_append.1 hm with hm | hm
      · exact ih hm
      · rw [List.mem_singleton] at hm
        subst hm
        cases hs with
        | ask h1 =>
          cases single h with
          | start g1 g2 => subst g2; cases h1
          | flight g1 g2 g3 g4 g5 g6 g7 g8 => rw [h1] at g6; simp at g6
          | failed g1 g2 g3 g4 g5 g6 => rw [h1] at g4; cases g4
          | told g1 g2 g3 g4 g5 g6 => rw [h1] at g2; cases g2
          | hung g1 g2 g3 g4 g5 g6 g7 => rw [h1] at g2; cases g2
  have ha := hask tr s h
  cases single h with
  | start g1 g2 => subst g1; cases hps
  | flight g1 g2 g3 g4 g5 g6 g7 g8 => exact absurd hps (g1 ps)
  | failed g1 g2 g3 g4 g5 g6 => exact absurd hps (g1 ps)
  | told g1 g2 g3 g4 g5 g6 =>
    refine ⟨?_, ?_, g1, ha⟩
    · rintro hm; simp [hm] at g6
    · rintro hm; simp [hm] at g6
  | hung g1 g2 g3 g4 g5 g6 g7 => exact ⟨by simp [g4], by simp [g4], g1, ha⟩

/-! ## Executions for the counterexamples -/

/-- The seed `a` has answered, `b` has failed, `a` is to be asked for its peers; then the timeout. -/
theorem two_seeds (cap : Nat) (hcap : 1 ≤ cap) (a b : U) (hab : a ≠ b) :
    ∃ tr, Run cap (init [a, b]) tr ⟨.waiting, 4, 1, 2, [], [a, b], [a, b], [], [], false, [.all a], [], [[], []], []⟩ ∧
      Ev.timeout ∈ tr ∧ Ev.answer (.info b) .other ∈ tr := by
  have e1 : 0 < cap := hcap
  have hba : b ≠ a := hab.symm
  have r1 := @execAll_sound U _ cap [.call 4 (.info a), .ask (.info a), .answer (.info a) (.ok []), .post (.infoOk a)]
    (init [a, b])
    ⟨.waiting, 4, 1, 2, [], [], [a, b], [.info b], [], true, [], [], [[]], [.infoOk a]⟩ (by simp [execAll, exec, init, e1, replies, ins, Top, Req.isAll, Req.url, St.room, St.fresh, takePost, leave, effect, Msg.cost, hab, hba])
  have r2 := @execAll_sound U _ cap [.recv (.infoOk a), .push (.info b), .drained, .handle (.infoOk a)]
    ⟨.waiting, 4, 1, 2, [], [], [a, b], [.info b], [], true, [], [], [[]], [.infoOk a]⟩
    ⟨.waiting, 4, 2, 2, [], [b], [a, b], [.all a], [], true, [.info b], [], [[]], []⟩ (by simp [execAll, exec, init, e1, replies, ins, Top, Req.isAll, Req.url, St.room, St.fresh, takePost, leave, effect, Msg.cost, hab, hba])
  have r3 := @execAll_sound U _ cap [.ask (.info b), .answer (.info b) .other, .post (.infoFail b)]
    ⟨.waiting, 4, 2, 2, [], [b], [a, b], [.all a], [], true, [.info b], [], [[]], []⟩
    ⟨.waiting, 4, 2, 2, [], [b], [a, b], [.all a], [], true, [], [], [[], []], [.infoFail b]⟩ (by simp [execAll, exec, init, e1, replies, ins, Top, Req.isAll, Req.url, St.room, St.fresh, takePost, leave, effect, Msg.cost, hab, hba])
  have r4 := @execAll_sound U _ cap [.recv (.infoFail b), .push (.all a), .drained, .handle (.infoFail b), .timeout]
    ⟨.waiting, 4, 2, 2, [], [b], [a, b], [.all a], [], true, [], [], [[], []], [.infoFail b]⟩
    ⟨.waiting, 4, 1, 2, [], [a, b], [a, b], [], [], false, [.all a], [], [[], []], []⟩ (by simp [execAll, exec, init, e1, replies, ins, Top, Req.isAll, Req.url, St.room, St.fresh, takePost, leave, effect, Msg.cost, hab, hba])
  exact ⟨_, ((r1.append r2).append r3).append r4, by simp, by simp⟩

/-- `a` names `b` after the timeout. -/
theorem two_seeds_end (cap : Nat) (a b : U) (hab : a ≠ b) :
    ∃ tr, Run cap ⟨.waiting, 4, 1, 2, [], [a, b], [a, b], [], [], false, [.all a], [], [[], []], []⟩
      tr ⟨.idle, 4, 0, 0, [], [a, b], [a, b], [.info b], [], false, [], [], [], []⟩ := by
  have e1 : True := trivial
  have hba : b ≠ a := hab.symm
  have r1 := @execAll_sound U _ cap [.ask (.all a), .answer (.all a) (.ok [b]), .post (.peers [b])]
    ⟨.waiting, 4, 1, 2, [], [a, b], [a, b], [], [], false, [.all a], [], [[], []], []⟩
    ⟨.waiting, 4, 1, 2, [], [a, b], [a, b], [], [], false, [], [], [[.active a], [], []], [.peers [b]]⟩ (by simp [execAll, exec, init, e1, replies, ins, Top, Req.isAll, Req.url, St.room, St.fresh, takePost, leave, effect, Msg.cost, hab, hba])
  have r2 := @execAll_sound U _ cap [.recv (.peers [b]), .drained, .handle (.peers [b])]
    ⟨.waiting, 4, 1, 2, [], [a, b], [a, b], [], [], false, [], [], [[.active a], [], []], [.peers [b]]⟩
    ⟨.waiting, 4, 1, 2, [], [a, b], [a, b], [], [.info b], false, [], [], [[.active a], [], []], []⟩ (by simp [execAll, exec, init, e1, replies, ins, Top, Req.isAll, Req.url, St.room, St.fresh, takePost, leave, effect, Msg.cost, hab, hba])
  have r3 := @execAll_sound U _ cap [.post (.active a), .recv (.active a), .drained, .handle (.active a), .finish]
    ⟨.waiting, 4, 1, 2, [], [a, b], [a, b], [], [.info b], false, [], [], [[.active a], [], []], []⟩
    ⟨.idle, 4, 0, 0, [], [a, b], [a, b], [.info b], [], false, [], [], [], []⟩ (by simp [execAll, exec, init, e1, replies, ins, Top, Req.isAll, Req.url, St.room, St.fresh, takePost, leave, effect, Msg.cost, hab, hba])
  exact ⟨_, (r1.append r2).append r3⟩

end Verif.Chrome
