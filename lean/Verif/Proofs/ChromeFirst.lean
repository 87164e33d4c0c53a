import Verif.Proofs.ChromeEnd

set_option linter.unusedSimpArgs false
set_option linter.unusedVariables false

/-!
# The first request of a scan with Chrome, and executions made from a list of events
-/

namespace Verif.Chrome
open Verif.Spec.Chrome
open Verif.Discovery (ins mem_ins ins_nodup)

variable {U : Type} [DecidableEq U]

/-- The message about the node `a` that answers the first request. -/
def About (a : U) (m : Msg U) : Prop := m = .infoOk a ∨ m = .infoFail a ∨ m = .infoTimeout a

def InFlight (a : U) (s : St U) : Prop :=
  ((s.reqs ++ s.tasks = [.info a] ∨ s.reqs ++ s.tasks = []) ∧ s.msgs = [] ∧ s.outs = []) ∨
  (s.reqs = [] ∧ s.tasks = [] ∧ ∃ x, About a x ∧ ((s.msgs = [] ∧ ∃ o, s.outs = [x :: o]) ∨ ∃ l, s.msgs = x :: l))

def Once (a : U) (s : St U) : Prop :=
  a ∈ s.visited ∨ Req.all a ∈ s.pending ∨ (s.addPeers = false ∧ ∀ u, Req.info u ∉ s.pending) ∨
  (Req.info a ∉ s.pending ∧ ((s.main = .waiting ∧ InFlight a s) ∨ ∃ m, About a m ∧ (s.main = .draining m ∨ s.main = .handling m)))

theorem about_replies {a : U} {ans : Ans U} : ∃ x o, About a x ∧ replies (.info a) ans = x :: o := by
  cases ans with
  | ok ps => exact ⟨_, [], Or.inl rfl, rfl⟩
  | abort => exact ⟨_, [.preflight], Or.inr (Or.inr rfl), rfl⟩
  | network => exact ⟨_, [], Or.inr (Or.inl rfl), rfl⟩
  | other => exact ⟨_, [], Or.inr (Or.inl rfl), rfl⟩

theorem once_step {cap : Nat} {s s' : St U} {e : Ev U} {a : U} (hs : Step cap s e s') (h : Once a s) (hi : s.main ≠ .idle)
    (hd : s.main ≠ .done) (hnp : s'.main ≠ .panicked) : Once a s' ∧ e ≠ .push (.info a) := by
  have hpush : e ≠ .push (.info a) := by
    rintro rfl
    cases hs with
    | @push m r h1 h2 h3 h4 h5 =>
      rcases h with h | h | ⟨_, h⟩ | ⟨h, _⟩
      · rcases h3 with h3 | h3
        · cases h3
        · exact h3 h
      · rcases h2.2 with h2 | h2
        · cases h2
        · have := h2 _ h; cases this
      · exact h _ h2.1
      · exact h h2.1
  refine ⟨?_, hpush⟩
  rcases h with h | h | ⟨h, h'⟩ | ⟨h, h'⟩
  · exact Or.inl (visited_old hs h)
  · cases hs with
    | call h1 h2 => exact absurd h1 hi
    | skip h1 h2 h3 => exact Or.inr (Or.inl ((List.mem_erase_of_ne (by simp)).2 h))
    | @push m r h1 h2 h3 h4 h5 =>
      by_cases hr : r = .all a
      · subst hr; exact Or.inl (mem_ins.2 (Or.inl rfl))
      · exact Or.inr (Or.inl ((List.mem_erase_of_ne (Ne.symm hr)).2 h))
    | @handle m h1 h2 =>
      refine Or.inr (Or.inl ?_)
      cases m <;> simp only [leave, effect]
      all_goals try exact h
      · exact List.mem_cons_of_mem _ h
      · split
        · exact List.mem_append_right _ h
        · exact h
    | timeout h1 h2 => exact Or.inr (Or.inr (Or.inl ⟨rfl, by simp⟩))
    | finish h1 => exact absurd h1 hd
    | _ => exact Or.inr (Or.inl h)
  · cases hs with
    | call h1 h2 => exact absurd h1 hi
    | skip h1 h2 h3 => exact absurd h2.1 (h' _)
    | @push m r h1 h2 h3 h4 h5 =>
      exact Or.inr (Or.inr (Or.inl ⟨h, fun u hu => h' u (List.mem_of_mem_erase hu)⟩))
    | @handle m h1 h2 =>
      refine Or.inr (Or.inr (Or.inl ?_))
      cases m <;> simp only [leave, effect]
      all_goals try exact ⟨h, h'⟩
      · refine ⟨h, fun u hu => ?_⟩
        rcases List.mem_cons.1 hu with hu | hu
        · cases hu
        · exact h' u hu
      · rw [if_neg (by simp [h])]; exact ⟨h, h'⟩
    | timeout h1 h2 => rw [h] at h2; cases h2
    | finish h1 => exact absurd h1 hd
    | _ => exact Or.inr (Or.inr (Or.inl ⟨h, h'⟩))
  · rcases h' with ⟨hw, hf⟩ | ⟨m, hm, hmm⟩
    · cases hs with
      | call h1 h2 => exact absurd h1 hi
      | @ask r rest h1 =>
        refine Or.inr (Or.inr (Or.inr ⟨h, Or.inl ⟨hw, ?_⟩⟩))
        rcases hf with ⟨hf, h2, h3⟩ | ⟨hf, _⟩
        · left
          refine ⟨?_, h2, h3⟩
          rw [h1] at hf
          rcases hf with hf | hf
          · left
            simp at hf
            obtain ⟨rfl, rfl, hf⟩ := hf
            simp [hf]
          · simp at hf
        · rw [hf] at h1; cases h1
      | @answer r a' h1 =>
        refine Or.inr (Or.inr (Or.inr ⟨h, Or.inl ⟨hw, ?_⟩⟩))
        rcases hf with ⟨hf, h2, h3⟩ | ⟨_, hf, _⟩
        · right
          rcases hf with hf | hf
          · have hr : s.reqs = [] ∧ s.tasks = [.info a] := by
              cases hq : s.reqs with
              | nil => rw [hq] at hf; exact ⟨rfl, hf⟩
              | cons x l =>
                rw [hq] at hf
                simp at hf
                rw [hf.2.2] at h1; cases h1
            rw [hr.2] at h1
            simp at h1
            subst h1
            obtain ⟨x, o, hx, hrep⟩ := about_replies (a := a) (ans := a')
            refine ⟨hr.1, by simp [hr.2], x, hx, Or.inl ⟨h2, o, ?_⟩⟩
            simp [hrep, h3]
          · rw [(List.append_eq_nil_iff.1 hf).2] at h1; cases h1
        · rw [hf] at h1; cases h1
      | @die r h1 =>
        refine Or.inr (Or.inr (Or.inr ⟨h, Or.inl ⟨hw, ?_⟩⟩))
        rcases hf with ⟨hf, h2, h3⟩ | ⟨_, hf, _⟩
        · left
          refine ⟨?_, h2, h3⟩
          right
          rcases hf with hf | hf
          · have hr : s.reqs = [] ∧ s.tasks = [.info a] := by
              cases hq : s.reqs with
              | nil => rw [hq] at hf; exact ⟨rfl, hf⟩
              | cons x l =>
                rw [hq] at hf
                simp at hf
                rw [hf.2.2] at h1; cases h1
            rw [hr.2] at h1
            simp at h1
            subst h1
            simp [hr.1, hr.2]
          · rw [(List.append_eq_nil_iff.1 hf).2] at h1; cases h1
        · rw [hf] at h1; cases h1
      | @post m o pre suf h1 =>
        refine Or.inr (Or.inr (Or.inr ⟨h, Or.inl ⟨hw, ?_⟩⟩))
        rcases hf with ⟨hf, h2, h3⟩ | ⟨hf, hf', x, hx, hq⟩
        · rw [h3] at h1; simp at h1
        · right
          refine ⟨hf, hf', x, hx, Or.inr ?_⟩
          rcases hq with ⟨h2, o', h3⟩ | ⟨l, h2⟩
          · rw [h3] at h1
            have : m = x := by
              cases pre with
              | nil => simp at h1; exact h1.1.1.symm
              | cons y pre => simp at h1
            subst this
            exact ⟨[], by simp [h2]⟩
          · exact ⟨l ++ [m], by simp [h2]⟩
      | @recv m rest h1 h2 =>
        refine Or.inr (Or.inr (Or.inr ⟨h, Or.inr ⟨m, ?_, Or.inl rfl⟩⟩))
        rcases hf with ⟨hf, h3, h4⟩ | ⟨hf, hf', x, hx, hq⟩
        · rw [h3] at h2; cases h2
        · rcases hq with ⟨h3, _⟩ | ⟨l, h3⟩
          · rw [h3] at h2; cases h2
          · rw [h3] at h2; cases h2; exact hx
      | timeout h1 h2 => exact Or.inr (Or.inr (Or.inl ⟨rfl, by simp⟩))
      | skip h1 h2 h3 => rw [hw] at h1; cases h1
      | push h1 h2 h3 h4 h5 => rw [hw] at h1; cases h1
      | drained h1 h2 => rw [hw] at h1; cases h1
      | handle h1 h2 => rw [hw] at h1; cases h1
      | underflow h1 h2 => rw [hw] at h1; cases h1
      | finish h1 => exact absurd h1 hd
    · cases hs with
      | call h1 h2 => exact absurd h1 hi
      | recv h1 h2 => rcases hmm with hmm | hmm <;> rw [hmm] at h1 <;> cases h1
      | skip h1 h2 h3 =>
        exact Or.inr (Or.inr (Or.inr ⟨fun hx => h (List.mem_of_mem_erase hx), Or.inr ⟨m, hm, hmm⟩⟩))
      | push h1 h2 h3 h4 h5 =>
        exact Or.inr (Or.inr (Or.inr ⟨fun hx => h (List.mem_of_mem_erase hx), Or.inr ⟨m, hm, hmm⟩⟩))
      | @drained m' h1 h2 =>
        rcases hmm with hmm | hmm <;> rw [hmm] at h1 <;> cases h1
        exact Or.inr (Or.inr (Or.inr ⟨h, Or.inr ⟨m, hm, Or.inr rfl⟩⟩))
      | @handle m' h1 h2 =>
        rcases hmm with hmm | hmm <;> rw [hmm] at h1 <;> cases h1
        rcases hm with rfl | rfl | rfl
        · exact Or.inr (Or.inl (List.mem_cons_self ..))
        · exact Or.inl (mem_ins.2 (Or.inl rfl))
        · exact Or.inl (mem_ins.2 (Or.inl rfl))
      | underflow h1 h2 => exact absurd rfl hnp
      | timeout h1 h2 => rcases hmm with hmm | hmm <;> rw [hmm] at h1 <;> cases h1
      | finish h1 => exact absurd h1 hd
      | _ => exact Or.inr (Or.inr (Or.inr ⟨h, Or.inr ⟨m, hm, hmm⟩⟩))

theorem no_call {cap : Nat} {seeds : List U} {tr : List (Ev U)} {s : St U} (h : Run cap (init seeds) tr s) (hc : calls tr = []) :
    tr = [] ∧ s = init seeds := by
  induction h with
  | nil => exact ⟨rfl, rfl⟩
  | @snoc tr s e s' h hs ih =>
    rw [calls_snoc, List.append_eq_nil_iff] at hc
    obtain ⟨rfl, rfl⟩ := ih hc.1
    exfalso
    cases hs <;> simp_all [init]

/-- In the first call of a scan the first node is not asked for again. -/
theorem first_once {cap : Nat} {seeds : List U} (hnd : seeds.Nodup) {tr : List (Ev U)} {s : St U} {a : U}
    (h : Run cap (init seeds) tr s) (hc : calls tr = [.info a]) :
    Req.info a ∉ pushes tr ∧ (s.main ≠ .idle → s.main ≠ .done → Once a s) := by
  induction h with
  | nil => cases hc
  | @snoc tr s e s' h hs ih =>
    have hnp := (nums (h.snoc hs)).np
    rw [calls_snoc] at hc
    by_cases he : ∃ n r, e = .call n r
    · obtain ⟨n, r, rfl⟩ := he
      have h0 : calls tr = [] ∧ r = .info a := by
        cases hq : calls tr with
        | nil => rw [hq] at hc; simp at hc; exact ⟨rfl, hc⟩
        | cons x l => rw [hq] at hc; simp at hc
      obtain ⟨h0, rfl⟩ := h0
      obtain ⟨rfl, rfl⟩ := no_call h h0
      refine ⟨by simp [pushes], fun _ _ => ?_⟩
      cases hs with
      | call h1 h2 =>
        refine Or.inr (Or.inr (Or.inr ⟨?_, Or.inl ⟨rfl, Or.inl ⟨Or.inl (by simp [init]), rfl, rfl⟩⟩⟩))
        have : ((init seeds).pending).Nodup := hnd.map (fun x y h => by cases h; rfl)
        exact this.not_mem_erase
    · have hc' : calls tr = [.info a] := by
        cases e <;> simp at hc <;> first | exact hc | exact absurd ⟨_, _, rfl⟩ he
      obtain ⟨i1, i2⟩ := ih hc'
      by_cases hi : s.main = .idle ∨ s.main = .done
      · refine ⟨?_, ?_⟩
        · rw [pushes_snoc]
          cases hs <;> simp_all
        · intro h1 h2
          exfalso
          cases hs <;> simp_all
      · rw [not_or] at hi
        obtain ⟨h1, h2⟩ := once_step hs (i2 hi.1 hi.2) hi.1 hi.2 hnp
        refine ⟨?_, fun _ _ => h1⟩
        rw [pushes_snoc]
        intro hm
        rcases List.mem_append.1 hm with hm | hm
        · exact i1 hm
        · cases e <;> simp at hm
          exact h2 (by rw [hm])

/-! ## A scan from a single seed -/

inductive Single (a : U) : List (Ev U) → St U → Prop
  | start {tr s} : tr = [] → s = init [a] → Single a tr s
  | flight {tr s} : (∀ ps, Ev.answer (.info a) (.ok ps) ∉ tr) → Ev.finish ∉ tr → s.main = .waiting → s.pending = [] → s.late = [] →
      s.reqs ++ s.tasks = [.info a] → s.msgs = [] → s.outs = [] → Single a tr s
  | failed {tr s} : (∀ ps, Ev.answer (.info a) (.ok ps) ∉ tr) → s.pending = [] → s.late = [] → s.reqs = [] → s.tasks = [] →
      (∀ m ∈ held s, m = .infoFail a ∨ m = .infoTimeout a ∨ m = .preflight) → Single a tr s
  | told {tr s} : Ev.finish ∉ tr → s.reqs = [] → s.tasks = [] → s.pending = [] → s.late = [] →
      ((s.main = .waiting ∧ s.msgs = [] ∧ s.outs = [[.infoOk a]]) ∨ (s.main = .waiting ∧ s.msgs = [.infoOk a] ∧ s.outs = [[]]) ∨
        ((s.main = .draining (.infoOk a) ∨ s.main = .handling (.infoOk a)) ∧ s.msgs = [] ∧ s.outs = [[]])) → Single a tr s
  | hung {tr s} : Ev.finish ∉ tr → s.reqs = [] → s.tasks = [] → s.main = .waiting → s.msgs = [] → s.outs = [[]] →
      s.pending ++ s.late = [.all a] → Single a tr s

theorem replies_info {a : U} {ans : Ans U} (h : ∀ ps, ans ≠ .ok ps) :
    ∀ m ∈ replies (.info a) ans, m = .infoFail a ∨ m = .infoTimeout a ∨ m = .preflight := by
  cases ans <;> simp [replies] at h ⊢

theorem single {cap : Nat} {tr : List (Ev U)} {s : St U} {a : U} (h : Run cap (init [a]) tr s) : Single a tr s := by
  induction h with
  | nil => exact .start rfl rfl
  | @snoc tr s e s' h hs ih =>
    have hfin : Ev.finish ∉ tr → e ≠ .finish → Ev.finish ∉ tr ++ [e] := by
      intro h1 h2 hm
      rcases List.mem_append.1 hm with hm | hm
      · exact h1 hm
      · exact h2 (List.mem_singleton.1 hm).symm
    have hok : (∀ ps, Ev.answer (.info a) (.ok ps) ∉ tr) → (∀ ps, e ≠ .answer (.info a) (.ok ps)) →
        ∀ ps, Ev.answer (.info a) (.ok ps) ∉ tr ++ [e] := by
      intro h1 h2 ps hm
      rcases List.mem_append.1 hm with hm | hm
      · exact h1 ps hm
      · exact h2 ps (List.mem_singleton.1 hm).symm
    have hnp := (nums (h.snoc hs)).np
    cases ih with
    | start h1 h2 =>
      subst h1 h2
      cases hs with
      | @call n r h1 h2 =>
        have hr : r = .info a := by simpa [init] using h2.1
        subst hr
        exact .flight (by simp) (by simp) rfl (by simp [init]) rfl (by simp [init]) rfl rfl
      | _ => simp_all [init]
    | flight h1 h2 h3 h4 h5 h6 h7 h8 =>
      cases hs with
      | call g1 g2 => rw [h3] at g1; cases g1
      | @ask r rest g1 =>
        refine .flight (hok h1 (by simp)) (hfin h2 (by simp)) h3 h4 h5 ?_ h7 h8
        rw [g1] at h6
        simp at h6
        obtain ⟨rfl, rfl, h6⟩ := h6
        simp [h6]
      | @answer r ans g1 =>
        have hr : s.reqs = [] ∧ s.tasks = [.info a] := by
          cases hq : s.reqs with
          | nil => rw [hq] at h6; exact ⟨rfl, h6⟩
          | cons x l =>
            rw [hq] at h6
            simp at h6
            rw [h6.2.2] at g1; cases g1
        rw [hr.2] at g1
        simp at g1
        subst g1
        by_cases hans : ∃ ps, ans = .ok ps
        · obtain ⟨ps, rfl⟩ := hans
          exact .told (hfin h2 (by simp)) hr.1 (by simp [hr.2]) h4 h5 (Or.inl ⟨h3, h7, by simp [replies, h8]⟩)
        · refine .failed (hok h1 ?_) h4 h5 hr.1 (by simp [hr.2]) ?_
          · intro ps hp; cases hp; exact hans ⟨_, rfl⟩
          · intro m hm
            simp only [held, current, h3, h7, h8, List.flatten_cons, List.flatten_nil, List.append_nil, List.nil_append] at hm
            exact replies_info (fun ps hp => hans ⟨ps, hp⟩) m hm
      | @die r g1 =>
        have hr : s.reqs = [] ∧ s.tasks = [.info a] := by
          cases hq : s.reqs with
          | nil => rw [hq] at h6; exact ⟨rfl, h6⟩
          | cons x l =>
            rw [hq] at h6
            simp at h6
            rw [h6.2.2] at g1; cases g1
        rw [hr.2] at g1
        simp at g1
        subst g1
        refine .failed (hok h1 (by simp)) h4 h5 hr.1 (by simp [hr.2]) ?_
        intro m hm
        simp [held, current, h3, h7, h8] at hm
      | post g1 => rw [h8] at g1; simp at g1
      | recv g1 g2 => rw [h7] at g2; cases g2
      | skip g1 g2 g3 => rw [h3] at g1; cases g1
      | push g1 g2 g3 g4 g5 => rw [h3] at g1; cases g1
      | drained g1 g2 => rw [h3] at g1; cases g1
      | handle g1 g2 => rw [h3] at g1; cases g1
      | underflow g1 g2 => rw [h3] at g1; cases g1
      | timeout g1 g2 => exact .flight (hok h1 (by simp)) (hfin h2 (by simp)) h3 rfl (by simp [h4, h5]) h6 h7 h8
      | finish g1 => rw [h3] at g1; cases g1
    | failed h1 h2 h3 h4 h5 h6 =>
      have hheld : (∀ r ans, e ≠ .answer r ans) → ∀ m ∈ held s', m = .infoFail a ∨ m = .infoTimeout a ∨ m = .preflight := by
        intro hne m hm
        rcases held_new hs hm with h | ⟨r, ans, he, _⟩
        · exact h6 m h
        · exact absurd he (hne r ans)
      cases hs with
      | call g1 g2 => rw [h2] at g2; cases g2.1
      | ask g1 => rw [h4] at g1; cases g1
      | answer g1 => rw [h5] at g1; cases g1
      | die g1 => rw [h5] at g1; cases g1
      | skip g1 g2 g3 => rw [h2] at g2; cases g2.1
      | push g1 g2 g3 g4 g5 => rw [h2] at g2; cases g2.1
      | @handle m g1 g2 =>
        have he := effect_msgs { s with chrome := s.chrome - m.cost } m
        have hm := h6 m (by simp [held, current, g1])
        refine .failed (hok h1 (by simp)) ?_ ?_ ?_ ?_ (hheld (by simp))
        · rcases hm with rfl | rfl | rfl <;> exact h2
        · rcases hm with rfl | rfl | rfl <;> exact h3
        · show (effect _ m).reqs = []; rw [he.2.2.1]; exact h4
        · show (effect _ m).tasks = []; rw [he.2.2.2.1]; exact h5
      | timeout g1 g2 => exact .failed (hok h1 (by simp)) rfl (by simp [h2, h3]) h4 h5 (hheld (by simp))
      | finish g1 => exact .failed (hok h1 (by simp)) h3 rfl h4 h5 (hheld (by simp))
      | _ => exact .failed (hok h1 (by simp)) h2 h3 h4 h5 (hheld (by simp))
    | told h1 h2 h3 h4 h5 h6 =>
      cases hs with
      | call g1 g2 => rw [h4] at g2; cases g2.1
      | ask g1 => rw [h2] at g1; cases g1
      | answer g1 => rw [h3] at g1; cases g1
      | die g1 => rw [h3] at g1; cases g1
      | @post m o pre suf g1 =>
        rcases h6 with ⟨h6, h7, h8⟩ | ⟨h6, h7, h8⟩ | ⟨h6, h7, h8⟩
        · rw [h8] at g1
          cases pre with
          | nil =>
            simp at g1
            obtain ⟨⟨rfl, rfl⟩, rfl⟩ := g1
            exact .told (hfin h1 (by simp)) h2 h3 h4 h5 (Or.inr (Or.inl ⟨h6, by simp [h7], rfl⟩))
          | cons y pre => simp at g1
        · rw [h8] at g1
          cases pre <;> simp at g1
        · rw [h8] at g1
          cases pre <;> simp at g1
      | @recv m rest g1 g2 =>
        rcases h6 with ⟨h6, h7, h8⟩ | ⟨h6, h7, h8⟩ | ⟨h6, h7, h8⟩
        · rw [h7] at g2; cases g2
        · rw [h7] at g2
          simp at g2
          obtain ⟨rfl, rfl⟩ := g2
          exact .told (hfin h1 (by simp)) h2 h3 h4 h5 (Or.inr (Or.inr ⟨Or.inl rfl, rfl, h8⟩))
        · rw [h7] at g2; cases g2
      | skip g1 g2 g3 => rw [h4] at g2; cases g2.1
      | push g1 g2 g3 g4 g5 => rw [h4] at g2; cases g2.1
      | @drained m g1 g2 =>
        rcases h6 with ⟨h6, h7, h8⟩ | ⟨h6, h7, h8⟩ | ⟨h6, h7, h8⟩
        · rw [h6] at g1; cases g1
        · rw [h6] at g1; cases g1
        · rcases h6 with h6 | h6 <;> rw [h6] at g1 <;> cases g1
          exact .told (hfin h1 (by simp)) h2 h3 h4 h5 (Or.inr (Or.inr ⟨Or.inr rfl, h7, h8⟩))
      | @handle m g1 g2 =>
        rcases h6 with ⟨h6, h7, h8⟩ | ⟨h6, h7, h8⟩ | ⟨h6, h7, h8⟩
        · rw [h6] at g1; cases g1
        · rw [h6] at g1; cases g1
        · rcases h6 with h6 | h6 <;> rw [h6] at g1 <;> cases g1
          refine .hung (hfin h1 (by simp)) h2 h3 ?_ h7 h8 (by simp [leave, effect, h4, h5])
          unfold leave
          simp [effect]
      | underflow g1 g2 => exact absurd rfl hnp
      | timeout g1 g2 =>
        rcases h6 with ⟨h6, h7, h8⟩ | ⟨h6, h7, h8⟩ | ⟨h6, h7, h8⟩
        · exact .told (hfin h1 (by simp)) h2 h3 rfl (by simp [h4, h5]) (Or.inl ⟨h6, h7, h8⟩)
        · exact .told (hfin h1 (by simp)) h2 h3 rfl (by simp [h4, h5]) (Or.inr (Or.inl ⟨h6, h7, h8⟩))
        · rcases h6 with h6 | h6 <;> rw [h6] at g1 <;> cases g1
      | finish g1 =>
        rcases h6 with ⟨h6, h7, h8⟩ | ⟨h6, h7, h8⟩ | ⟨h6, h7, h8⟩
        · rw [h6] at g1; cases g1
        · rw [h6] at g1; cases g1
        · rcases h6 with h6 | h6 <;> rw [h6] at g1 <;> cases g1
    | hung h1 h2 h3 h4 h5 h6 h7 =>
      cases hs with
      | timeout g1 g2 => exact .hung (hfin h1 (by simp)) h2 h3 h4 h5 h6 (by simpa using h7)
      | @post m o pre suf g1 => rw [h6] at g1; cases pre <;> simp at g1
      | _ => simp_all

/-! ## Executions from a list of events -/

/-- Takes a message from a task that is about to send it. -/
def takePost (m : Msg U) : List (List (Msg U)) → Option (List (List (Msg U)))
  | [] => none
  | [] :: t => (takePost m t).map ([] :: ·)
  | (x :: o) :: t => if x = m then some (o :: t) else (takePost m t).map ((x :: o) :: ·)

theorem takePost_sound {m : Msg U} {l l' : List (List (Msg U))} (h : takePost m l = some l') :
    ∃ pre o suf, l = pre ++ (m :: o) :: suf ∧ l' = pre ++ o :: suf := by
  induction l generalizing l' with
  | nil => cases h
  | cons x t ih =>
    cases x with
    | nil =>
      simp only [takePost, Option.map_eq_some_iff] at h
      obtain ⟨k, h1, rfl⟩ := h
      obtain ⟨pre, o, suf, rfl, rfl⟩ := ih h1
      exact ⟨[] :: pre, o, suf, rfl, rfl⟩
    | cons y o =>
      simp only [takePost] at h
      split at h
      · rename_i hy
        subst hy
        cases h
        exact ⟨[], o, t, rfl, rfl⟩
      · rw [Option.map_eq_some_iff] at h
        obtain ⟨k, h1, rfl⟩ := h
        obtain ⟨pre, o', suf, rfl, rfl⟩ := ih h1
        exact ⟨(y :: o) :: pre, o', suf, rfl, rfl⟩

instance (r : Req U) (l : List (Req U)) : Decidable (Top r l) := inferInstanceAs (Decidable (_ ∧ (_ ∨ ∀ x ∈ l, _)))
instance (s : St U) : Decidable s.room := inferInstanceAs (Decidable (_ ∧ _))
instance (s : St U) (r : Req U) : Decidable (s.fresh r) := inferInstanceAs (Decidable (_ ∨ _))

def exec (cap : Nat) (s : St U) : Ev U → Option (St U)
  | .call n r => if s.main = .idle ∧ Top r s.pending then
      some { s with main := .waiting, limit := n, count := 1, chrome := 2, pending := s.pending.erase r, late := [],
                    addPeers := true, reqs := s.reqs ++ [r] } else none
  | .ask r => match s.reqs with
    | x :: rest => if x = r then some { s with reqs := rest, tasks := r :: s.tasks } else none
    | [] => none
  | .answer r a => if r ∈ s.tasks then some { s with tasks := s.tasks.erase r, outs := replies r a :: s.outs } else none
  | .die r => if r ∈ s.tasks then some { s with tasks := s.tasks.erase r } else none
  | .post m => match takePost m s.outs with
    | some l => some { s with outs := l, msgs := s.msgs ++ [m] }
    | none => none
  | .recv m => match s.msgs with
    | x :: rest => if x = m ∧ s.main = .waiting then some { s with main := .draining m, msgs := rest } else none
    | [] => none
  | .skip u => match s.main with
    | .draining _ => if Top (.info u) s.pending ∧ u ∈ s.visited then some { s with pending := s.pending.erase (.info u) } else none
    | _ => none
  | .push r => match s.main with
    | .draining _ => if Top r s.pending ∧ s.fresh r ∧ s.room ∧ s.reqs.length < cap then
        some { s with pending := s.pending.erase r, visited := ins r.url s.visited, chrome := s.chrome + 2,
                      count := if r.isAll then s.count else s.count + 1, reqs := s.reqs ++ [r] } else none
    | _ => none
  | .drained => match s.main with
    | .draining m => if s.pending = [] ∨ ∃ r ∈ s.pending, Top r s.pending ∧ s.fresh r ∧ (¬ s.room ∨ cap ≤ s.reqs.length) then
        some { s with main := .handling m } else none
    | _ => none
  | .handle m => if s.main = .handling m ∧ m.cost ≤ s.chrome then
      some (leave (effect { s with chrome := s.chrome - m.cost } m)) else none
  | .timeout => if s.main = .waiting ∧ s.addPeers = true then
      some { s with addPeers := false, pending := [], late := s.pending ++ s.late } else none
  | .finish => if s.main = .done then
      some { s with main := .idle, count := 0, chrome := 0, active := s.active.filter (· ∉ s.seeds), pending := s.late,
                    late := [], outs := [], msgs := [] } else none

theorem exec_sound {cap : Nat} {s s' : St U} {e : Ev U} (h : exec cap s e = some s') : Step cap s e s' := by
  cases e with
  | call n r =>
    simp only [exec] at h
    split at h
    · rename_i hc; cases h; exact .call hc.1 hc.2
    · cases h
  | ask r =>
    simp only [exec] at h
    split at h
    · rename_i hq
      split at h
      · rename_i hx; subst hx; cases h; exact .ask hq
      · cases h
    · cases h
  | answer r a =>
    simp only [exec] at h
    split at h
    · rename_i hc; cases h; exact .answer hc
    · cases h
  | die r =>
    simp only [exec] at h
    split at h
    · rename_i hc; cases h; exact .die hc
    · cases h
  | post m =>
    simp only [exec] at h
    split at h
    · rename_i l hl
      cases h
      obtain ⟨pre, o, suf, h1, rfl⟩ := takePost_sound hl
      exact .post h1
    · cases h
  | recv m =>
    simp only [exec] at h
    split at h
    · rename_i hq
      split at h
      · rename_i hx; obtain ⟨rfl, hx⟩ := hx; cases h; exact .recv hx hq
      · cases h
    · cases h
  | skip u =>
    simp only [exec] at h
    split at h
    · rename_i hm
      split at h
      · rename_i hc; cases h; exact .skip hm hc.1 hc.2
      · cases h
    · cases h
  | push r =>
    simp only [exec] at h
    split at h
    · rename_i hm
      split at h
      · rename_i hc; cases h; exact .push hm hc.1 hc.2.1 hc.2.2.1 hc.2.2.2
      · cases h
    · cases h
  | drained =>
    simp only [exec] at h
    split at h
    · rename_i hm
      split at h
      · rename_i hc
        cases h
        refine .drained hm ?_
        rcases hc with hc | ⟨r, _, hc⟩
        · exact Or.inl hc
        · exact Or.inr ⟨r, hc⟩
      · cases h
    · cases h
  | handle m =>
    simp only [exec] at h
    split at h
    · rename_i hc; cases h; exact .handle hc.1 hc.2
    · cases h
  | timeout =>
    simp only [exec] at h
    split at h
    · rename_i hc; cases h; exact .timeout hc.1 hc.2
    · cases h
  | finish =>
    simp only [exec] at h
    split at h
    · rename_i hc; cases h; exact .finish hc
    · cases h

def execAll (cap : Nat) (s : St U) : List (Ev U) → Option (St U)
  | [] => some s
  | e :: l => (exec cap s e).bind fun s' => execAll cap s' l

theorem Run.cons {cap : Nat} {s s' s'' : St U} {e : Ev U} {tr : List (Ev U)} (h : Step cap s e s') (hr : Run cap s' tr s'') :
    Run cap s (e :: tr) s'' := by
  induction hr with
  | nil => exact (Run.nil.snoc h : Run cap s ([] ++ [e]) s')
  | @snoc tr t e' t' _ hs ih => exact (ih.snoc hs : Run cap s ((e :: tr) ++ [e']) t')

theorem execAll_sound {cap : Nat} {tr : List (Ev U)} {s s' : St U} (h : execAll cap s tr = some s') : Run cap s tr s' := by
  induction tr generalizing s with
  | nil => cases h; exact .nil
  | cons e tr ih =>
    simp only [execAll, Option.bind_eq_some_iff] at h
    obtain ⟨t, h1, h2⟩ := h
    exact .cons (exec_sound h1) (ih h2)

end Verif.Chrome
