import Verif.Spec.Requests

/-!
# Lemmas for C110
-/

namespace Verif
namespace Requests
open Spec.Requests

variable {α : Type}

theorem steps_append {r : Req α} (as bs : List (Act α)) :
    steps r (as ++ bs) = (steps r as).bind fun r' => steps r' bs := by
  induction as generalizing r with
  | nil => rfl
  | cons a as ih =>
    simp only [List.cons_append, steps]
    cases step r a with
    | none => rfl
    | some r' => exact ih

/-- What one action does to what matters. -/
theorem step_cases {r r' : Req α} {a : Act α} (h : step r a = some r') :
    r'.cb = r.cb ∧
    ((r'.log = r.log ∧ ¬ (∃ x, a = .pollEnd (.ready x)) ∧ a ≠ .abortCall) ∨
      (∃ x, a = .pollEnd (.ready x) ∧ r.phase = .polling ∧ r'.phase = .over ∧ r'.log = r.log ++ [report r.cb x]) ∨
      (a = .abortCall ∧ 0 < r.aborting ∧ r'.log = r.log ++ [.abort r.cb.user])) ∧
    (r.phase = .over → r'.phase = .over) ∧
    (r.flag = true → r'.flag = true ∧ (r.phase ≠ .polling → r'.phase ≠ .polling)) := by
  cases a with
  | pollBegin =>
    simp only [step] at h
    split at h <;> cases h
    rename_i hp
    cases hf : r.flag <;> simp_all
  | pollEnd p =>
    simp only [step] at h
    split at h
    · rename_i hp
      cases p with
      | pending => cases h; cases hf : r.flag <;> simp_all
      | ready x => cases h; simp_all
      | panics => cases h; simp_all
    · cases h
  | abortFlag =>
    simp only [step] at h
    split at h <;> cases h
    simp
  | abortCall =>
    simp only [step] at h
    split at h <;> cases h
    simp_all [Callback.aborted]
  | deleteHandle =>
    simp only [step] at h
    split at h <;> cases h
    simp
  | deleteRuntime =>
    simp only [step] at h
    split at h <;> cases h
    simp_all

theorem report_says (c : Callback) (x : Answer α) : Says c.user x (report c x) := by
  cases x
  · exact .ok _
  · exact .nothing
  · exact .err _

theorem says_completes {u : Nat} {x : Answer α} {e : Ev α} (h : Says u x e) : Completes e = true := by cases h <;> rfl

theorem says_unique {u : Nat} {x : Answer α} {e e' : Ev α} (h : Says u x e) (h' : Says u x e') : e = e' := by
  cases h <;> cases h' <;> rfl

theorem completions_append (l l' : List (Ev α)) : completions (l ++ l') = completions l + completions l' := List.countP_append

theorem aborts_append (l l' : List (Ev α)) : aborts (l ++ l') = aborts l + aborts l' := List.countP_append

theorem completions_le (l : List (Ev α)) : completions l + aborts l = l.length := by
  unfold completions aborts
  rw [List.length_eq_countP_add_countP Completes]
  congr 1
  apply List.countP_congr
  intro x _
  simp

/-- As long as the task is not over, the completion function was not called; it is called at most once. -/
theorem steps_once {r r' : Req α} {as : List (Act α)} (h : steps r as = some r') (h0 : completions r.log ≤ 1)
    (h1 : r.phase ≠ .over → completions r.log = 0) :
    completions r'.log ≤ 1 ∧ (r'.phase ≠ .over → completions r'.log = 0) := by
  induction as generalizing r with
  | nil => cases h; exact ⟨h0, h1⟩
  | cons a as ih =>
    simp only [steps] at h
    cases hs : step r a with
    | none => simp [hs] at h
    | some r1 =>
      simp only [hs] at h
      obtain ⟨hcb, hl, hov, hfl⟩ := step_cases hs
      have hno : r1.phase ≠ .over → r.phase ≠ .over := fun hx hy => hx (hov hy)
      rcases hl with ⟨hl, _⟩ | ⟨x, _, hp, hp1, hl⟩ | ⟨_, _, hl⟩
      · exact ih h (hl ▸ h0) (fun hx => hl ▸ h1 (hno hx))
      · have hz : completions r.log = 0 := h1 (by rw [hp]; simp)
        have : completions r1.log = 1 := by
          rw [hl, completions_append, hz]
          simp [completions, says_completes (report_says r.cb x)]
        exact ih h (by omega) (fun hx => absurd hp1 hx)
      · have : completions r1.log = completions r.log := by
          rw [hl, completions_append]; simp [completions, Completes]
        exact ih h (by omega) (fun hx => by rw [this]; exact h1 (hno hx))

/-- The data of the caller stays the same. -/
theorem steps_cb {r r' : Req α} {as : List (Act α)} (h : steps r as = some r') : r'.cb = r.cb := by
  induction as generalizing r with
  | nil => cases h; rfl
  | cons a as ih =>
    simp only [steps] at h
    cases hs : step r a with
    | none => simp [hs] at h
    | some r1 =>
      simp only [hs] at h
      rw [ih h, (step_cases hs).1]

/-- The calls made are those of before, then one for each answer and each abort, in the order of the actions. -/
theorem steps_log {r r' : Req α} {as : List (Act α)} (h : steps r as = some r') :
    r'.log = r.log ++ as.filterMap fun a => match a with
      | .pollEnd (.ready x) => some (report r.cb x)
      | .abortCall => some (.abort r.cb.user)
      | _ => none := by
  induction as generalizing r with
  | nil => cases h; simp
  | cons a as ih =>
    simp only [steps] at h
    cases hs : step r a with
    | none => simp [hs] at h
    | some r1 =>
      simp only [hs] at h
      obtain ⟨hcb, hl, _⟩ := step_cases hs
      rw [ih h, hcb]
      rcases hl with ⟨hl, hnr, hna⟩ | ⟨x, rfl, _, _, hl⟩ | ⟨rfl, _, hl⟩
      · rw [hl]
        cases a with
        | pollEnd p =>
          cases p with
          | ready x => exact absurd ⟨x, rfl⟩ hnr
          | _ => simp
        | abortCall => exact absurd rfl hna
        | _ => simp
      · rw [hl]; simp
      · rw [hl]; simp

/-- Once the flag is set and no poll is under way, the task is never polled again. -/
theorem steps_flag {r r' : Req α} {as : List (Act α)} (h : steps r as = some r') (hf : r.flag = true) (hp : r.phase ≠ .polling) :
    completions r'.log = completions r.log ∧ r'.flag = true ∧ r'.phase ≠ .polling := by
  induction as generalizing r with
  | nil => cases h; exact ⟨rfl, hf, hp⟩
  | cons a as ih =>
    simp only [steps] at h
    cases hs : step r a with
    | none => simp [hs] at h
    | some r1 =>
      simp only [hs] at h
      obtain ⟨hcb, hl, hov, hfl⟩ := step_cases hs
      have h2 := ih h (hfl hf).1 ((hfl hf).2 hp)
      refine ⟨?_, h2.2⟩
      rw [h2.1]
      rcases hl with ⟨hl, _⟩ | ⟨x, _, hpp, _⟩ | ⟨_, _, hl⟩
      · rw [hl]
      · exact absurd hpp hp
      · rw [hl, completions_append]; simp [completions, Completes]

theorem need_ok (l : List (Option Nat × String)) : need l = .ok () ↔ ∀ x ∈ l, x.1 ≠ none := by
  induction l with
  | nil => simp [need]
  | cons x l ih =>
    obtain ⟨p, n⟩ := x
    cases p <;> simp [need, ih]

theorem readSeeds_some (isUrl : Text → Bool) (n : Nat) (l : List (Option Text)) (h : n ≤ l.length) :
    ∃ x, readSeeds isUrl n l = some x ∧ ((∃ ts, x = .ok ts) ↔ ∀ s ∈ l.take n, ∃ t, s = some t ∧ isUrl t = true) := by
  induction n generalizing l with
  | zero => exact ⟨.ok [], by cases l <;> rfl, by simp⟩
  | succ n ih =>
    cases l with
    | nil => simp at h
    | cons s l =>
      cases s with
      | none => exact ⟨_, rfl, by simp⟩
      | some t =>
        by_cases hu : isUrl t = true
        · obtain ⟨x, hx, hiff⟩ := ih l (by simpa using h)
          simp only [readSeeds, hu, if_true, hx]
          cases x with
          | ok ts => exact ⟨_, rfl, by simpa [hu] using hiff⟩
          | error e => exact ⟨_, rfl, by simpa [hu] using hiff⟩
        · simp only [readSeeds, if_neg hu]
          exact ⟨_, rfl, by simp [hu]⟩

end Requests
end Verif
