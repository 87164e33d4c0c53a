import Verif.Proofs.TimerMore
import Verif.Model.Timeout

/-! # Streams with a timeout -/

set_option linter.unusedSimpArgs false
set_option linter.unusedVariables false

namespace Verif
namespace Timer
open Spec.Timer (Delay delay Allowed Program Touches Reached)
variable {R : Type}

/-- The calls among the steps. -/
def evsOf (l : List (SEv R)) : List Ev := l.filterMap fun x => match x with | .ev e => some e | .poll _ _ => none

theorem evsOf_append (a b : List (SEv R)) : evsOf (a ++ b) = evsOf a ++ evsOf b := List.filterMap_append

/-- The calls can be made from `σ`. -/
def AllowedAll (σ : Nat → Delay) (l : List Ev) : Prop :=
  ∀ pre e post, l = pre ++ e :: post → Allowed (fun n => pre.foldl (Delay.step n) (σ n)) e

theorem AllowedAll.cons {σ : Nat → Delay} {e : Ev} {l : List Ev} (h : AllowedAll σ (e :: l)) :
    Allowed σ e ∧ AllowedAll (fun n => (σ n).step n e) l :=
  ⟨h [] e l rfl, fun pre x post hl => h (e :: pre) x post (by rw [hl]; rfl)⟩

theorem allowedAll_of_program {a b : List Ev} (h : Program (a ++ b)) : AllowedAll (fun n => delay n a) b := by
  intro pre e post hl
  have := h (a ++ pre) e post (by rw [hl]; simp)
  simpa [delay, List.foldl_append] using this

/-- Agreement except about `n`, which is live. -/
def Off (n : Nat) (σ σ0 : Nat → Delay) : Prop := (∀ m, m ≠ n → σ m = σ0 m) ∧ ∃ d s f, σ n = .live d s f

theorem Off.allowed {n : Nat} {σ σ0 : Nat → Delay} (h : Off n σ σ0) {e : Ev} (ht : ¬ Touches n e) (ha : Allowed σ0 e) : Allowed σ e := by
  cases e with
  | create m due => have hm : m ≠ n := ht; show σ m = _; rw [h.1 m hm]; exact ha
  | reset m due => have hm : m ≠ n := ht; show ∃ d s f, σ m = _; rw [h.1 m hm]; exact ha
  | dropDelay m => have hm : m ≠ n := ht; show ∃ d s f, σ m = _; rw [h.1 m hm]; exact ha
  | pollTimer => trivial
  | advance now => trivial
  | dropTimer => exact ha

theorem Off.step {n : Nat} {σ σ0 : Nat → Delay} (h : Off n σ σ0) {e : Ev} (ht : ¬ Touches n e) :
    Off n (fun m => (σ m).step m e) (fun m => (σ0 m).step m e) := by
  refine ⟨fun m hm => by show (σ m).step m e = (σ0 m).step m e; rw [h.1 m hm], ?_⟩
  obtain ⟨d, s, f, hn⟩ := h.2
  obtain ⟨s', f', hs⟩ := step_untouched (n := n) (d := d) (s := s) (f := f) ht
  exact ⟨d, s', f', by show (σ n).step n e = _; rw [hn, hs]⟩

theorem Off.reset {n due : Nat} {σ σ0 : Nat → Delay} (h : Off n σ σ0) :
    Off n (fun m => (σ m).step m (.reset n due)) σ0 ∧ (σ n).step n (.reset n due) = .live due false false := by
  obtain ⟨d, s, f, hn⟩ := h.2
  have e : (σ n).step n (.reset n due) = .live due false false := by rw [hn]; simp [Delay.step]
  refine ⟨⟨fun m hm => ?_, _, _, _, e⟩, e⟩
  show (σ m).step m (.reset n due) = σ0 m
  rw [h.1 m hm]
  cases σ0 m <;> simp [Delay.step, Ne.symm hm]

theorem reset_step {w : World} {σ : Nat → Delay} (hJ : J w σ) (ht : w.taken = []) {n due : Nat} (h : ∃ d s f, σ n = .live d s f) :
    J (w.reset n due) (fun m => (σ m).step m (.reset n due)) ∧ (w.reset n due).taken = [] := by
  obtain ⟨w', h1, h2, h3⟩ := step_J hJ ht (e := .reset n due) h
  simp only [World.step, Outcome.ok.injEq] at h1
  subst h1
  exact ⟨h2, h3⟩

theorem streamRun_append (w : World) (n dur : Nat) (a b : List (SEv R)) : w.streamRun n dur (a ++ b) = (do
    let (ya, w) ← w.streamRun n dur a
    let (yb, w) ← w.streamRun n dur b
    .ok (ya ++ yb, w)) := by
  induction a generalizing w with
  | nil =>
    simp only [List.nil_append, World.streamRun, Outcome.bind_ok]
    cases w.streamRun n dur b <;> rfl
  | cons e a ih =>
    simp only [List.cons_append, World.streamRun]
    cases w.streamStep n dur e with
    | err => rfl
    | panic => rfl
    | ok x =>
      obtain ⟨y, w1⟩ := x
      simp only [Outcome.bind_ok, ih]
      cases w1.streamRun n dur a with
      | err => rfl
      | panic => rfl
      | ok x =>
        obtain ⟨ya, w2⟩ := x
        simp only [Outcome.bind_ok]
        cases w2.streamRun n dur b <;> rfl

/-- One step: the state after, and what is answered. -/
theorem streamStep_J {n dur : Nat} {w : World} {σ σ0 : Nat → Delay} (hJ : J w σ) (ht : w.taken = []) (ho : Off n σ σ0) (x : SEv R)
    (hnt : ∀ e, x = .ev e → ¬ Touches n e) (ha : ∀ e, x = .ev e → Allowed σ0 e) :
    ∃ y w' σ', w.streamStep n dur x = .ok (y, w') ∧ J w' σ' ∧ w'.taken = [] ∧
      Off n σ' (fun m => (evsOf [x]).foldl (Delay.step m) (σ0 m)) ∧
      (y = none → σ' n = (evsOf [x]).foldl (Delay.step n) (σ n)) ∧
      ∀ now i, x = .poll now i → (y ≠ none → σ' n = .live (now + dur) false false) ∧
        y = match i with
          | some r => some (.inner r)
          | none => match σ n with
            | .live _ _ true => some .timedOut
            | _ => none := by
  cases x with
  | ev e =>
    obtain ⟨w', h1, h2, h3⟩ := step_J hJ ht (ho.allowed (hnt e rfl) (ha e rfl))
    refine ⟨none, w', _, by simp [World.streamStep, h1], h2, h3, ho.step (hnt e rfl), fun _ => rfl, ?_⟩
    intro now i h; cases h
  | poll now i =>
    obtain ⟨r1, r2⟩ := ho.reset (due := now + dur)
    obtain ⟨j1, j2⟩ := reset_step hJ ht (due := now + dur) ho.2
    cases i with
    | some r =>
      refine ⟨some (.inner r), _, _, rfl, j1, j2, r1, by simp, ?_⟩
      intro now' i' h
      cases h
      exact ⟨fun _ => r2, rfl⟩
    | none =>
      obtain ⟨d, s, f, hn⟩ := ho.2
      have hp := pollDelay_live hJ hn
      cases f with
      | true =>
        refine ⟨some .timedOut, _, _, by simp only [World.streamStep, World.pollStream, hp]; rfl, j1, j2, r1, by simp, ?_⟩
        intro now' i' h
        cases h
        exact ⟨fun _ => r2, by rw [hn]⟩
      | false =>
        refine ⟨none, w, σ, by simp only [World.streamStep, World.pollStream, hp]; rfl, hJ, ht, ho, fun _ => rfl, ?_⟩
        intro now' i' h
        cases h
        exact ⟨fun h => absurd rfl h, by rw [hn]⟩

theorem streamRun_J {n dur : Nat} : ∀ (l : List (SEv R)) {w : World} {σ σ0 : Nat → Delay}, J w σ → w.taken = [] → Off n σ σ0 →
    (∀ e, .ev e ∈ l → ¬ Touches n e) → AllowedAll σ0 (evsOf l) →
    ∃ ys w' σ', w.streamRun n dur l = .ok (ys, w') ∧ ys.length = l.length ∧ J w' σ' ∧ w'.taken = [] ∧
      Off n σ' (fun m => (evsOf l).foldl (Delay.step m) (σ0 m)) ∧
      ((∀ y ∈ ys, y = none) → σ' n = (evsOf l).foldl (Delay.step n) (σ n))
  | [], w, σ, σ0, hJ, ht, ho, _, _ => ⟨[], w, σ, rfl, rfl, hJ, ht, ho, fun _ => rfl⟩
  | x :: l, w, σ, σ0, hJ, ht, ho, hnt, ha => by
    have hx : evsOf (x :: l) = evsOf [x] ++ evsOf l := evsOf_append [x] l
    have ha1 : ∀ e, x = .ev e → Allowed σ0 e := by
      rintro e rfl
      exact ha.cons.1
    have ha2 : AllowedAll (fun m => (evsOf [x]).foldl (Delay.step m) (σ0 m)) (evsOf l) := by
      cases x with
      | ev e => exact ha.cons.2
      | poll now i => exact ha
    obtain ⟨y, w1, σ1, h1, h2, h3, h4, h5, _⟩ := streamStep_J (dur := dur) hJ ht ho x (fun e he => hnt e (by rw [he]; exact List.mem_cons_self)) ha1
    obtain ⟨ys, w2, σ2, g1, g2, g3, g4, g5, g6⟩ := streamRun_J (dur := dur) l h2 h3 h4 (fun e he => hnt e (List.mem_cons_of_mem _ he)) ha2
    refine ⟨y :: ys, w2, σ2, by simp only [World.streamRun, h1, Outcome.bind_ok, g1], by simp [g2], g3, g4, ?_, ?_⟩
    · rw [hx]; simpa only [List.foldl_append] using g5
    · intro hy
      rw [g6 fun z hz => hy z (List.mem_cons_of_mem _ hz), h5 (hy y List.mem_cons_self), hx, List.foldl_append]

end Timer
end Verif
