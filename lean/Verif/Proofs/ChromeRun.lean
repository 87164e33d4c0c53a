import Verif.Proofs.Chrome

set_option linter.unusedSimpArgs false
set_option linter.unusedVariables false

/-!
# What a scan for peers with Chrome finds
-/

namespace Verif.Chrome
open Verif.Spec.Chrome
open Verif.Discovery (ins mem_ins ins_nodup)

variable {U : Type}

def Where (tr : List (Ev U)) (s : St U) (r : Req U) : Prop := r ∈ s.pending ∨ r ∈ s.late ∨ r ∈ s.reqs ∨ r ∈ asked tr

def Msg.url? : Msg U → Option U
  | .active u => some u
  | .infoFail u => some u
  | .infoTimeout u => some u
  | .allFail u => some u
  | .allTimeout u => some u
  | _ => none

@[simp] theorem asked_nil : asked ([] : List (Ev U)) = [] := rfl

theorem asked_snoc (tr : List (Ev U)) (e : Ev U) :
    asked (tr ++ [e]) = asked tr ++ (match e with | .ask r => [r] | _ => []) := by
  unfold asked
  rw [List.filterMap_append]
  cases e <;> rfl

variable [DecidableEq U]

theorem mem_erase_or {α : Type} [DecidableEq α] {x r : α} {l : List α} (h : x ∈ l) : x = r ∨ x ∈ l.erase r := by
  by_cases hx : x = r
  · exact Or.inl hx
  · exact Or.inr ((List.mem_erase_of_ne hx).2 h)

/-! ## Steps -/

theorem held_leave (t : St U) : held (leave t) = t.msgs ++ t.outs.flatten := by rw [held_eq, queue_leave]; rfl

theorem held_new {cap : Nat} {s s' : St U} {e : Ev U} (hs : Step cap s e s') {m : Msg U} (hm : m ∈ held s') :
    m ∈ held s ∨ ∃ r a, e = .answer r a ∧ m ∈ replies r a := by
  cases hs with
  | call h1 h2 => left; simp only [held, current, h1] at hm ⊢; exact hm
  | ask h1 => exact Or.inl hm
  | @answer r a h1 =>
    simp only [held, List.flatten_cons, List.mem_append] at hm
    rcases hm with (h | h) | h | h
    · left; simp [held, List.mem_append]; exact Or.inl h
    · left; simp [held, List.mem_append]; exact Or.inr (Or.inl h)
    · exact Or.inr ⟨r, a, rfl, h⟩
    · left; simp only [held, List.mem_append]; exact Or.inr h
  | die h1 => exact Or.inl hm
  | post h1 =>
    left
    simp only [held, List.flatten_append, List.flatten_cons, List.mem_append, h1] at hm ⊢
    rcases hm with (h | h | h) | h | h | h
    · exact Or.inl (Or.inl h)
    · exact Or.inl (Or.inr h)
    · refine Or.inr (Or.inr (Or.inl ?_)); simp at h; simp [h]
    · exact Or.inr (Or.inl h)
    · exact Or.inr (Or.inr (Or.inl (List.mem_cons_of_mem _ h)))
    · exact Or.inr (Or.inr (Or.inr h))
  | recv h1 h2 => left; simp only [held, current, h1, h2] at hm ⊢; exact hm
  | skip h1 h2 h3 => exact Or.inl hm
  | push h1 h2 h3 h4 h5 => exact Or.inl hm
  | drained h1 h2 => left; simp only [held, current, h1] at hm ⊢; exact hm
  | @handle m' h1 h2 =>
    left
    rw [held_leave] at hm
    have he := effect_msgs { s with chrome := s.chrome - m'.cost } m'
    rw [he.1, he.2.1] at hm
    simp only [held, current, h1, List.append_assoc, List.singleton_append]
    exact List.mem_cons_of_mem _ hm
  | underflow h1 h2 =>
    left
    simp only [held, current, h1, List.append_assoc, List.singleton_append, List.nil_append] at hm ⊢
    exact List.mem_cons_of_mem _ hm
  | timeout h1 h2 => exact Or.inl hm
  | finish h1 => simp [held, current] at hm

theorem held_old {cap : Nat} {s s' : St U} {e : Ev U} (hs : Step cap s e s') {m : Msg U} (hm : m ∈ held s) :
    m ∈ held s' ∨ e = .handle m ∨ (e = .finish ∧ s.main = .done) := by
  cases hs with
  | call h1 h2 => left; simp only [held, current, h1] at hm ⊢; exact hm
  | ask h1 => exact Or.inl hm
  | @answer r a h1 =>
    left
    simp only [held, List.flatten_cons, List.mem_append] at hm ⊢
    rcases hm with (h | h) | h
    · exact Or.inl (Or.inl h)
    · exact Or.inl (Or.inr h)
    · exact Or.inr (Or.inr h)
  | die h1 => exact Or.inl hm
  | post h1 =>
    left
    simp only [held, List.flatten_append, List.flatten_cons, List.mem_append, h1, List.mem_cons] at hm ⊢
    rcases hm with (h | h) | h | (h | h) | h
    · exact Or.inl (Or.inl h)
    · exact Or.inl (Or.inr (Or.inl h))
    · exact Or.inr (Or.inl h)
    · exact Or.inl (Or.inr (Or.inr (Or.inl h)))
    · exact Or.inr (Or.inr (Or.inl h))
    · exact Or.inr (Or.inr (Or.inr h))
  | recv h1 h2 => left; simp only [held, current, h1, h2] at hm ⊢; exact hm
  | skip h1 h2 h3 => exact Or.inl hm
  | push h1 h2 h3 h4 h5 => exact Or.inl hm
  | drained h1 h2 => left; simp only [held, current, h1] at hm ⊢; exact hm
  | @handle m' h1 h2 =>
    have he := effect_msgs { s with chrome := s.chrome - m'.cost } m'
    rw [held_leave, he.1, he.2.1]
    simp only [held, current, h1, List.append_assoc, List.singleton_append] at hm
    rcases List.mem_cons.1 hm with rfl | hm
    · exact Or.inr (Or.inl rfl)
    · exact Or.inl hm
  | @underflow m' h1 h2 =>
    simp only [held, current, h1, List.append_assoc, List.singleton_append, List.nil_append] at hm ⊢
    rcases List.mem_cons.1 hm with rfl | hm
    · exact Or.inr (Or.inl rfl)
    · exact Or.inl hm
  | timeout h1 h2 => exact Or.inl hm
  | finish h1 => exact Or.inr (Or.inr ⟨rfl, h1⟩)

theorem where_new {cap : Nat} {s s' : St U} {e : Ev U} {tr : List (Ev U)} (hs : Step cap s e s') {r : Req U}
    (h : Where (tr ++ [e]) s' r) :
    Where tr s r ∨ (∃ u, e = .handle (.infoOk u) ∧ r = .all u) ∨ ∃ ps p, e = .handle (.peers ps) ∧ p ∈ ps ∧ r = .info p := by
  unfold Where at h ⊢
  rw [asked_snoc] at h
  cases hs with
  | call h1 h2 =>
    left
    simp only [List.mem_append, List.not_mem_nil, or_false, List.mem_singleton, false_or] at h
    rcases h with h | (h | rfl) | h
    · exact Or.inl (List.mem_of_mem_erase h)
    · exact Or.inr (Or.inr (Or.inl h))
    · exact Or.inl h2.1
    · exact Or.inr (Or.inr (Or.inr h))
  | ask h1 =>
    left
    simp only [h1, List.mem_append, List.mem_singleton, List.mem_cons] at h ⊢
    rcases h with h | h | h | h | h
    · exact Or.inl h
    · exact Or.inr (Or.inl h)
    · exact Or.inr (Or.inr (Or.inl (Or.inr h)))
    · exact Or.inr (Or.inr (Or.inr h))
    · exact Or.inr (Or.inr (Or.inl (Or.inl (by simpa using h))))
  | answer h1 => left; simpa using h
  | die h1 => left; simpa using h
  | post h1 => left; simpa using h
  | recv h1 h2 => left; simpa using h
  | skip h1 h2 h3 =>
    left
    simp only [List.append_nil] at h
    rcases h with h | h
    · exact Or.inl (List.mem_of_mem_erase h)
    · exact Or.inr h
  | push h1 h2 h3 h4 h5 =>
    left
    simp only [List.mem_append, List.not_mem_nil, or_false, List.mem_singleton] at h
    rcases h with h | h | (h | rfl) | h
    · exact Or.inl (List.mem_of_mem_erase h)
    · exact Or.inr (Or.inl h)
    · exact Or.inr (Or.inr (Or.inl h))
    · exact Or.inl h2.1
    · exact Or.inr (Or.inr (Or.inr h))
  | drained h1 h2 => left; simpa using h
  | @handle m h1 h2 =>
    simp only [List.append_nil] at h
    cases m <;> simp only [leave, effect] at h
    all_goals try exact Or.inl h
    · rcases h with h | h
      · rcases List.mem_cons.1 h with rfl | h
        · exact Or.inr (Or.inl ⟨_, rfl, rfl⟩)
        · exact Or.inl (Or.inl h)
      · exact Or.inl (Or.inr h)
    · rename_i ps
      split at h
      · rcases h with h | h
        · rcases List.mem_append.1 h with h | h
          · obtain ⟨p, hp, rfl⟩ := List.mem_map.1 h
            exact Or.inr (Or.inr ⟨ps, p, rfl, hp, rfl⟩)
          · exact Or.inl (Or.inl h)
        · exact Or.inl (Or.inr h)
      · rcases h with h | h | h
        · exact Or.inl (Or.inl h)
        · rcases List.mem_append.1 h with h | h
          · obtain ⟨p, hp, rfl⟩ := List.mem_map.1 h
            exact Or.inr (Or.inr ⟨ps, p, rfl, hp, rfl⟩)
          · exact Or.inl (Or.inr (Or.inl h))
        · exact Or.inl (Or.inr (Or.inr h))
  | underflow h1 h2 => left; simpa using h
  | timeout h1 h2 =>
    left
    simp only [List.mem_append, List.not_mem_nil, or_false, false_or] at h
    rcases h with (h | h) | h
    · exact Or.inl h
    · exact Or.inr (Or.inl h)
    · exact Or.inr (Or.inr h)
  | finish h1 =>
    left
    simp only [List.append_nil, List.not_mem_nil, false_or] at h
    exact Or.inr h

theorem where_old {cap : Nat} {s s' : St U} {e : Ev U} {tr : List (Ev U)} (hs : Step cap s e s') {r : Req U}
    (hidle : s.main = .idle → s.late = []) (hdone : s.main = .done → s.pending = []) (h : Where tr s r) :
    Where (tr ++ [e]) s' r ∨ ∃ u, e = .skip u ∧ u ∈ s.visited ∧ r = .info u := by
  unfold Where at h ⊢
  rw [asked_snoc]
  cases hs with
  | call h1 h2 =>
    left
    rw [hidle h1] at h
    simp only [List.mem_append, List.not_mem_nil, or_false, List.mem_singleton, false_or] at h ⊢
    rcases h with h | h | h
    · rcases mem_erase_or h with h | h
      · exact Or.inr (Or.inl (Or.inr h))
      · exact Or.inl h
    · exact Or.inr (Or.inl (Or.inl h))
    · exact Or.inr (Or.inr h)
  | ask h1 =>
    left
    simp only [h1, List.mem_append, List.mem_singleton, List.mem_cons] at h ⊢
    rcases h with h | h | (h | h) | h <;> simp [h]
  | answer h1 => left; simpa using h
  | die h1 => left; simpa using h
  | post h1 => left; simpa using h
  | recv h1 h2 => left; simpa using h
  | @skip m u h1 h2 h3 =>
    simp only [List.append_nil]
    rcases h with h | h
    · rcases mem_erase_or h with h | h
      · exact Or.inr ⟨u, rfl, h3, h⟩
      · exact Or.inl (Or.inl h)
    · exact Or.inl (Or.inr h)
  | push h1 h2 h3 h4 h5 =>
    left
    simp only [List.mem_append, List.not_mem_nil, or_false, List.mem_singleton]
    rcases h with h | h | h | h
    · rcases mem_erase_or h with h | h
      · exact Or.inr (Or.inr (Or.inl (Or.inr h)))
      · exact Or.inl h
    · exact Or.inr (Or.inl h)
    · exact Or.inr (Or.inr (Or.inl (Or.inl h)))
    · exact Or.inr (Or.inr (Or.inr h))
  | drained h1 h2 => left; simpa using h
  | @handle m h1 h2 =>
    left
    simp only [List.append_nil]
    cases m <;> simp only [leave, effect]
    all_goals try exact h
    · rcases h with h | h
      · exact Or.inl (List.mem_cons_of_mem _ h)
      · exact Or.inr h
    · split
      · rcases h with h | h
        · exact Or.inl (List.mem_append_right _ h)
        · exact Or.inr h
      · rcases h with h | h | h
        · exact Or.inl h
        · exact Or.inr (Or.inl (List.mem_append_right _ h))
        · exact Or.inr (Or.inr h)
  | underflow h1 h2 => left; simpa using h
  | timeout h1 h2 =>
    left
    simp only [List.mem_append, List.not_mem_nil, or_false, false_or]
    rcases h with h | h | h
    · exact Or.inl (Or.inl h)
    · exact Or.inl (Or.inr h)
    · exact Or.inr h
  | finish h1 =>
    left
    rw [hdone h1] at h
    simp only [List.append_nil, List.not_mem_nil, false_or] at h ⊢
    exact h

/-- A new request comes with a new list, or from the handling of a message. -/
theorem where_handle {cap : Nat} {s s' : St U} {m : Msg U} {tr : List (Ev U)} (hs : Step cap s (.handle m) s')
    (hnp : s'.main ≠ .panicked) :
    (∀ u, m = .infoOk u → Where (tr ++ [.handle m]) s' (.all u)) ∧
    (∀ ps, m = .peers ps → ∀ p ∈ ps, Where (tr ++ [.handle m]) s' (.info p)) ∧ ∀ u, m = .active u → u ∈ s'.active := by
  cases hs with
  | handle h1 h2 =>
    refine ⟨?_, ?_, ?_⟩
    · rintro u rfl; exact Or.inl (List.mem_cons_self ..)
    · rintro ps rfl p hp
      have : Req.info p ∈ ps.map Req.info := List.mem_map.2 ⟨p, hp, rfl⟩
      simp only [leave, effect]
      split
      · exact Or.inl (List.mem_append_left _ this)
      · exact Or.inr (Or.inl (List.mem_append_left _ this))
    · rintro u rfl; exact mem_ins.2 (Or.inl rfl)
  | underflow h1 h2 => exact absurd rfl hnp

theorem visited_new {cap : Nat} {s s' : St U} {e : Ev U} (hs : Step cap s e s') {u : U} (h : u ∈ s'.visited) :
    u ∈ s.visited ∨ (∃ r, e = .push r ∧ r.url = u ∧ r ∈ s.pending ∧ r ∈ s'.reqs) ∨ ∃ m, m ∈ held s ∧ m.url? = some u := by
  cases hs with
  | push h1 h2 h3 h4 h5 =>
    rcases mem_ins.1 h with h | h
    · exact Or.inr (Or.inl ⟨_, rfl, h.symm, h2.1, by simp⟩)
    · exact Or.inl h
  | @handle m h1 h2 =>
    have hh : m ∈ held s := by simp [held, current, h1]
    cases m <;> simp only [leave, effect] at h
    all_goals try exact Or.inl h
    all_goals try (rcases mem_ins.1 h with h | h; exact Or.inr (Or.inr ⟨_, hh, by rw [h]; rfl⟩); exact Or.inl h)
    split at h <;> exact Or.inl h
  | _ => exact Or.inl h

theorem visited_old {cap : Nat} {s s' : St U} {e : Ev U} (hs : Step cap s e s') {u : U} (h : u ∈ s.visited) : u ∈ s'.visited := by
  cases hs with
  | push h1 h2 h3 h4 h5 => exact mem_ins.2 (Or.inr h)
  | @handle m h1 h2 =>
    cases m <;> simp only [leave, effect]
    all_goals try exact h
    all_goals try exact mem_ins.2 (Or.inr h)
    split <;> exact h
  | _ => exact h

theorem active_new {cap : Nat} {s s' : St U} {e : Ev U} (hs : Step cap s e s') {u : U} (h : u ∈ s'.active) :
    u ∈ s.active ∨ Msg.active u ∈ held s := by
  cases hs with
  | @handle m h1 h2 =>
    have hh : m ∈ held s := by simp [held, current, h1]
    cases m <;> simp only [leave, effect] at h
    all_goals try exact Or.inl h
    · rcases mem_ins.1 h with rfl | h
      · exact Or.inr hh
      · exact Or.inl h
    · split at h <;> exact Or.inl h
  | finish h1 => exact Or.inl (List.mem_of_mem_filter h)
  | _ => exact Or.inl h

theorem active_old {cap : Nat} {s s' : St U} {e : Ev U} (hs : Step cap s e s') {u : U} (h : u ∈ s.active) :
    u ∈ s'.active ∨ u ∈ s.seeds := by
  cases hs with
  | @handle m h1 h2 =>
    left
    cases m <;> simp only [leave, effect]
    all_goals try exact h
    · exact mem_ins.2 (Or.inr h)
    · split <;> exact h
  | finish h1 =>
    by_cases hu : u ∈ s.seeds
    · exact Or.inr hu
    · exact Or.inl (List.mem_filter.2 ⟨h, by simpa using hu⟩)
  | _ => exact Or.inl h

theorem active_nodup {cap : Nat} {s s' : St U} {e : Ev U} (hs : Step cap s e s') (h : s.active.Nodup) : s'.active.Nodup := by
  cases hs with
  | @handle m h1 h2 =>
    cases m <;> simp only [leave, effect]
    all_goals try exact h
    · exact ins_nodup h
    · split <;> exact h
  | finish h1 => exact h.filter _
  | _ => exact h

theorem seeds_step {cap : Nat} {s s' : St U} {e : Ev U} (hs : Step cap s e s') : s'.seeds = s.seeds := by
  cases hs with
  | @handle m h1 h2 => exact (effect_msgs { s with chrome := s.chrome - m.cost } m).2.2.2.2.1
  | _ => rfl

theorem idle_step {cap : Nat} {s s' : St U} {e : Ev U} (hs : Step cap s e s') (hi : s'.main = .idle) :
    (s.main = .idle ∧ s'.late = s.late ∧ s'.active = s.active) ∨ (s'.late = [] ∧ ∀ u ∈ s'.active, u ∉ s'.seeds) := by
  cases hs with
  | @handle m h1 h2 => unfold leave at hi; simp only [] at hi; split at hi <;> cases hi
  | finish h1 => exact Or.inr ⟨rfl, fun u hu => by simpa using (List.mem_filter.1 hu).2⟩
  | call h1 h2 => cases hi
  | recv h1 h2 => cases hi
  | drained h1 h2 => cases hi
  | underflow h1 h2 => cases hi
  | skip h1 h2 h3 => rw [show s.main = _ from hi] at h1; cases h1
  | push h1 h2 h3 => rw [show s.main = _ from hi] at h1; cases h1
  | timeout h1 h2 => rw [show s.main = _ from hi] at h1; cases h1
  | _ => exact Or.inl ⟨hi, rfl, rfl⟩

theorem reqs_old {cap : Nat} {s s' : St U} {e : Ev U} (hs : Step cap s e s') {r : Req U} (h : r ∈ s.reqs) :
    r ∈ s'.reqs ∨ e = .ask r := by
  cases hs with
  | call h1 h2 => exact Or.inl (List.mem_append_left _ h)
  | ask h1 =>
    rw [h1] at h
    rcases List.mem_cons.1 h with rfl | h
    · exact Or.inr rfl
    · exact Or.inl h
  | push h1 h2 h3 h4 h5 => exact Or.inl (List.mem_append_left _ h)
  | @handle m h1 h2 =>
    have := (effect_msgs { s with chrome := s.chrome - m.cost } m).2.2.1
    exact Or.inl (by show r ∈ (effect _ m).reqs; rw [this]; exact h)
  | _ => exact Or.inl h

/-- The tasks under way. -/
theorem tasks_step {cap : Nat} {s s' : St U} {e : Ev U} (hs : Step cap s e s') :
    (∀ r ∈ s'.tasks, r ∈ s.tasks ∨ e = .ask r) ∧ (∀ r ∈ s.tasks, r ∈ s'.tasks ∨ (∃ a, e = .answer r a) ∨ e = .die r) ∧
    (∀ r, e = .ask r → r ∈ s'.tasks) ∧ ∀ r a, e = .answer r a → r ∈ s.tasks := by
  cases hs with
  | ask h1 =>
    refine ⟨?_, ?_, ?_, ?_⟩
    · intro r hr; rcases List.mem_cons.1 hr with rfl | hr
      · exact Or.inr rfl
      · exact Or.inl hr
    · intro r hr; exact Or.inl (List.mem_cons_of_mem _ hr)
    · intro r hr; cases hr; exact List.mem_cons_self ..
    · intro r a h; cases h
  | @answer r' a h1 =>
    refine ⟨?_, ?_, ?_, ?_⟩
    · intro r hr; exact Or.inl (List.mem_of_mem_erase hr)
    · intro r hr; rcases mem_erase_or hr with h | h
      · exact Or.inr (Or.inl ⟨a, by rw [h]⟩)
      · exact Or.inl h
    · intro r hr; cases hr
    · intro r a h; cases h; exact h1
  | @die r' h1 =>
    refine ⟨?_, ?_, ?_, ?_⟩
    · intro r hr; exact Or.inl (List.mem_of_mem_erase hr)
    · intro r hr; rcases mem_erase_or hr with h | h
      · exact Or.inr (Or.inr (by rw [h]))
      · exact Or.inl h
    · intro r hr; cases hr
    · intro r a h; cases h
  | @handle m h1 h2 =>
    have := (effect_msgs { s with chrome := s.chrome - m.cost } m).2.2.2.1
    refine ⟨?_, ?_, ?_, ?_⟩
    · intro r hr; exact Or.inl (by rw [show s.tasks = _ from this.symm]; exact hr)
    · intro r hr; exact Or.inl (by show r ∈ (effect _ m).tasks; rw [this]; exact hr)
    · intro r hr; cases hr
    · intro r a h; cases h
  | _ => exact ⟨fun r hr => Or.inl hr, fun r hr => Or.inl hr, fun r h => (nomatch h), fun r a h => (nomatch h)⟩

/-! ## The invariant -/

structure Content (seeds : List U) (tr : List (Ev U)) (s : St U) : Prop where
  seedsEq : s.seeds = seeds
  task1 : ∀ r ∈ s.tasks, r ∈ asked tr
  ask1 : ∀ r ∈ asked tr, r ∈ s.tasks ∨ (∃ a, Ev.answer r a ∈ tr) ∨ Ev.die r ∈ tr
  ans1 : ∀ r a, Ev.answer r a ∈ tr → r ∈ asked tr
  msgOk : ∀ u, Msg.infoOk u ∈ held s → ∃ ps, Ev.answer (.info u) (.ok ps) ∈ tr
  msgUrl : ∀ m u, m ∈ held s → m.url? = some u → ∃ r, r.url = u ∧ r ∈ asked tr
  msgActive : ∀ u, Msg.active u ∈ held s ∨ u ∈ s.active → ∃ ps, Ev.answer (.all u) (.ok ps) ∈ tr
  msgPeers : ∀ ps, Msg.peers ps ∈ held s → ∃ u, Ev.answer (.all u) (.ok ps) ∈ tr
  allSrc : ∀ u, Where tr s (.all u) → ∃ ps, Ev.answer (.info u) (.ok ps) ∈ tr
  infoSrc : ∀ p, Where tr s (.info p) → p ∈ seeds ∨ ∃ u ps, Ev.answer (.all u) (.ok ps) ∈ tr ∧ p ∈ ps
  fwdInfo : ∀ u ps, Ev.answer (.info u) (.ok ps) ∈ tr → Msg.infoOk u ∈ held s ∨ Where tr s (.all u)
  fwdPeers : ∀ u ps, Ev.answer (.all u) (.ok ps) ∈ tr → Msg.peers ps ∈ held s ∨ ∀ p ∈ ps, Where tr s (.info p)
  fwdActive : ∀ u ps, Ev.answer (.all u) (.ok ps) ∈ tr → Msg.active u ∈ held s ∨ u ∈ s.active ∨ u ∈ seeds
  vis : ∀ u ∈ s.visited, Req.info u ∈ s.reqs ∨ Req.info u ∈ asked tr
  seedKnown : ∀ u ∈ seeds, Where tr s (.info u)
  nodup : s.active.Nodup
  idleLate : s.main = .idle → s.late = [] ∧ ∀ u ∈ s.active, u ∉ seeds

theorem content {cap : Nat} {seeds : List U} {tr : List (Ev U)} {s : St U} (h : Run cap (init seeds) tr s) : Content seeds tr s := by
  induction h with
  | nil =>
    constructor <;> simp [init, held, current, Where]
  | @snoc tr s e s' h hs ih =>
    have hn := nums h
    have hn' := nums (h.snoc hs)
    obtain ⟨seedsEq, task1, ask1, ans1, msgOk, msgUrl, msgActive, msgPeers, allSrc, infoSrc, fwdInfo, fwdPeers, fwdActive, vis,
      seedKnown, nodup, idleLate⟩ := ih
    obtain ⟨t1, t2, t3, t4⟩ := tasks_step hs
    have hmem : ∀ {x : Ev U}, x ∈ tr → x ∈ tr ++ [e] := fun hx => List.mem_append_left _ hx
    have hmem' : ∀ {x : Ev U}, x ∈ tr ++ [e] → x ∈ tr ∨ e = x := by
      intro x hx
      rcases List.mem_append.1 hx with h | h
      · exact Or.inl h
      · exact Or.inr (List.mem_singleton.1 h).symm
    have hask : ∀ {r : Req U}, r ∈ asked tr → r ∈ asked (tr ++ [e]) := by
      intro r hr; rw [asked_snoc]; exact List.mem_append_left _ hr
    have hask' : ∀ {r : Req U}, r ∈ asked (tr ++ [e]) → r ∈ asked tr ∨ e = .ask r := by
      intro r hr
      rw [asked_snoc] at hr
      rcases List.mem_append.1 hr with h | h
      · exact Or.inl h
      · cases e <;> simp at h
        exact Or.inr (by rw [h])
    have hdrop : e = .finish ∧ s.main = .done → ∀ m ∈ held s, m = .preflight := fun hd => (atDone h hd.2).2.2.2.2.2
    have hwo : ∀ {r : Req U}, Where tr s r → Where (tr ++ [e]) s' r := by
      intro r hr
      rcases where_old hs (fun hi => (idleLate hi).1) (fun hd => (hn.done hd).2) hr with h | ⟨u, rfl, hv, rfl⟩
      · exact h
      · unfold Where
        rcases vis u hv with h | h
        · have hr' : s'.reqs = s.reqs := by cases hs; rfl
          exact Or.inr (Or.inr (Or.inl (hr' ▸ h)))
        · exact Or.inr (Or.inr (Or.inr (hask h)))
    have hheld : ∀ {m : Msg U}, m ∈ held s → m ≠ .preflight → m ∈ held s' ∨ e = .handle m := by
      intro m hm hne
      rcases held_old hs hm with h | h | h
      · exact Or.inl h
      · exact Or.inr h
      · exact absurd (hdrop h m hm) hne
    have hrep : ∀ {m : Msg U} {r a}, e = .answer r a → m ∈ replies r a → m ∈ held s' := by
      rintro m r a rfl hm
      cases hs
      simp only [held, List.flatten_cons, List.mem_append]
      exact Or.inr (Or.inl hm)
    have hans : ∀ {r a}, e = .answer r a → r ∈ asked tr := fun he => task1 _ (t4 _ _ he)
    constructor
    · rw [seeds_step hs]; exact seedsEq
    · intro r hr
      rcases t1 r hr with h | rfl
      · exact hask (task1 r h)
      · rw [asked_snoc]; simp
    · intro r hr
      rcases hask' hr with h | h
      · rcases ask1 r h with h | ⟨a, h⟩ | h
        · rcases t2 r h with h | ⟨a, h⟩ | h
          · exact Or.inl h
          · exact Or.inr (Or.inl ⟨a, by rw [h]; simp⟩)
          · exact Or.inr (Or.inr (by rw [h]; simp))
        · exact Or.inr (Or.inl ⟨a, hmem h⟩)
        · exact Or.inr (Or.inr (hmem h))
      · exact Or.inl (t3 r h)
    · intro r a hr
      rcases hmem' hr with h | h
      · exact hask (ans1 r a h)
      · exact hask (hans h)
    · intro u hu
      rcases held_new hs hu with h | ⟨r, a, rfl, hm⟩
      · obtain ⟨ps, hps⟩ := msgOk u h; exact ⟨ps, hmem hps⟩
      · cases r <;> cases a <;> simp [replies] at hm
        subst hm
        rename_i ps
        exact ⟨ps, by simp⟩
    · intro m u hm hu
      rcases held_new hs hm with h | ⟨r, a, rfl, hm⟩
      · obtain ⟨r, h1, h2⟩ := msgUrl m u h hu; exact ⟨r, h1, hask h2⟩
      · refine ⟨r, ?_, hask (hans rfl)⟩
        cases r <;> cases a <;> simp [replies] at hm
        all_goals first
          | (subst hm; simp [Msg.url?] at hu <;> exact hu)
          | (rcases hm with rfl | rfl <;> simp [Msg.url?] at hu <;> exact hu)
    · intro u hu
      rcases hu with hu | hu
      · rcases held_new hs hu with h | ⟨r, a, rfl, hm⟩
        · obtain ⟨ps, hps⟩ := msgActive u (Or.inl h); exact ⟨ps, hmem hps⟩
        · cases r <;> cases a <;> simp [replies] at hm
          subst hm
          rename_i ps
          exact ⟨ps, by simp⟩
      · rcases active_new hs hu with h | h
        · obtain ⟨ps, hps⟩ := msgActive u (Or.inr h); exact ⟨ps, hmem hps⟩
        · obtain ⟨ps, hps⟩ := msgActive u (Or.inl h); exact ⟨ps, hmem hps⟩
    · intro ps hu
      rcases held_new hs hu with h | ⟨r, a, rfl, hm⟩
      · obtain ⟨u, hps⟩ := msgPeers ps h; exact ⟨u, hmem hps⟩
      · cases r <;> cases a <;> simp [replies] at hm
        subst hm
        rename_i u
        exact ⟨u, by simp⟩
    · intro u hu
      rcases where_new hs hu with h | ⟨v, rfl, hv⟩ | ⟨ps, p, rfl, _, hv⟩
      · obtain ⟨ps, hps⟩ := allSrc u h; exact ⟨ps, hmem hps⟩
      · cases hv
        have : Msg.infoOk u ∈ held s := by
          cases hs with
          | handle h1 h2 => simp [held, current, h1]
          | underflow h1 h2 => simp [held, current, h1]
        obtain ⟨ps, hps⟩ := msgOk u this; exact ⟨ps, hmem hps⟩
      · cases hv
    · intro p hp
      rcases where_new hs hp with h | ⟨v, rfl, hv⟩ | ⟨ps, p', rfl, hin, hv⟩
      · rcases infoSrc p h with h | ⟨u, ps, h1, h2⟩
        · exact Or.inl h
        · exact Or.inr ⟨u, ps, hmem h1, h2⟩
      · cases hv
      · cases hv
        have : Msg.peers ps ∈ held s := by
          cases hs with
          | handle h1 h2 => simp [held, current, h1]
          | underflow h1 h2 => simp [held, current, h1]
        obtain ⟨u, hps⟩ := msgPeers ps this
        exact Or.inr ⟨u, ps, hmem hps, hin⟩
    · intro u ps hu
      rcases hmem' hu with h | rfl
      · rcases fwdInfo u ps h with h | h
        · rcases hheld h (by simp) with h | rfl
          · exact Or.inl h
          · exact Or.inr ((where_handle hs hn'.np).1 u rfl)
        · exact Or.inr (hwo h)
      · exact Or.inl (hrep rfl (by simp [replies]))
    · intro u ps hu
      rcases hmem' hu with h | rfl
      · rcases fwdPeers u ps h with h | h
        · rcases hheld h (by simp) with h | rfl
          · exact Or.inl h
          · exact Or.inr ((where_handle hs hn'.np).2.1 ps rfl)
        · exact Or.inr (fun p hp => hwo (h p hp))
      · exact Or.inl (hrep rfl (by simp [replies]))
    · intro u ps hu
      rcases hmem' hu with h | rfl
      · rcases fwdActive u ps h with h | h | h
        · rcases hheld h (by simp) with h | rfl
          · exact Or.inl h
          · exact Or.inr (Or.inl ((where_handle (tr := tr) hs hn'.np).2.2 u rfl))
        · rcases active_old hs h with h | h
          · exact Or.inr (Or.inl h)
          · exact Or.inr (Or.inr (seedsEq ▸ h))
        · exact Or.inr (Or.inr h)
      · exact Or.inl (hrep rfl (by simp [replies]))
    · intro u hu
      have hasks : ∀ {r : Req U}, r.url = u → r ∈ asked tr → Req.info u ∈ asked tr := by
        rintro r rfl hr
        cases r with
        | info v => exact hr
        | all v =>
          obtain ⟨ps, hps⟩ := allSrc v (Or.inr (Or.inr (Or.inr hr)))
          exact ans1 _ _ hps
      rcases visited_new hs hu with h | ⟨r, rfl, hr, hp, hq⟩ | ⟨m, hm, hmu⟩
      · rcases vis u h with h | h
        · rcases reqs_old hs h with h | h
          · exact Or.inl h
          · exact Or.inr (by rw [asked_snoc, h]; simp)
        · exact Or.inr (hask h)
      · cases r with
        | info v => cases hr; exact Or.inl hq
        | all v =>
          cases hr
          obtain ⟨ps, hps⟩ := allSrc v (Or.inl hp)
          exact Or.inr (hask (ans1 _ _ hps))
      · obtain ⟨r, h1, h2⟩ := msgUrl m u hm hmu
        exact Or.inr (hask (hasks h1 h2))
    · intro u hu; exact hwo (seedKnown u hu)
    · exact active_nodup hs nodup
    · intro hi
      rcases idle_step hs hi with ⟨h1, h2, h3⟩ | ⟨h1, h2⟩
      · rw [h2, h3]; exact idleLate h1
      · refine ⟨h1, ?_⟩
        rw [seeds_step hs, seedsEq] at h2; exact h2

end Verif.Chrome
