import Verif.Spec.Discovery
import Mathlib.Data.List.Nodup
import Mathlib.Tactic.ByContra

set_option linter.unusedSimpArgs false
set_option linter.unusedVariables false

/-!
# Invariants of the search for peers
-/

namespace Verif.Discovery
open Spec.Discovery

variable {U : Type} [DecidableEq U]

def Msg.isFinal : Msg U → Bool
  | .peers _ => false
  | _ => true

def Msg.isPeers : Msg U → Bool
  | .peers _ => true
  | _ => false

def Msg.isActive : Msg U → Bool
  | .active _ => true
  | _ => false

def seeded (tr : List (Ev U)) : List U := tr.filterMap fun e => match e with | .seed u => some u | _ => none
def pushes (tr : List (Ev U)) : List U := tr.filterMap fun e => match e with | .push u => some u | _ => none
def answered (tr : List (Ev U)) : List U := tr.filterMap fun e => match e with | .answer u _ => some u | _ => none
def died (tr : List (Ev U)) : List U := tr.filterMap fun e => match e with | .die u => some u | _ => none

def rest (s : St U) : List U := match s.main with | .seeding l => l | _ => []
def current (s : St U) : List (Msg U) := match s.main with | .draining m => [m] | .handling m => [m] | _ => []
def pend (s : St U) : List (Msg U) := current s ++ s.msgs
def held (s : St U) : List (Msg U) := pend s ++ s.outs.flatten

theorem mem_ins {u v : U} {l : List U} : u ∈ ins v l ↔ u = v ∨ u ∈ l := by
  unfold ins; split <;> simp_all

theorem ins_nodup {v : U} {l : List U} (h : l.Nodup) : (ins v l).Nodup := by
  unfold ins; split <;> simp_all

/-! ## Where the requests are -/

structure Flow (cap : Nat) (seeds : List U) (tr : List (Ev U)) (s : St U) : Prop where
  sent : seeded tr ++ rest s = seeds
  enq : (seeded tr ++ pushes tr).Perm (asked tr ++ s.urls)
  task : (asked tr).Perm (s.tasks ++ answered tr ++ died tr)
  capU : s.urls.length ≤ cap
  capM : s.msgs.length ≤ cap
  outs : ∀ o ∈ s.outs, (∃ u, o = [.inactive u]) ∨ (∃ u, o = [.active u]) ∨ ∃ ps u, o = [.peers ps, .active u]

theorem flow (cap : Nat) (seeds : List U) {tr : List (Ev U)} {s : St U} (h : Run cap (init seeds) tr s) : Flow cap seeds tr s := by
  induction h with
  | nil => exact ⟨rfl, by simp [seeded, pushes, asked, init], by simp [asked, init, answered, died], by simp [init], by simp [init],
      by simp [init]⟩
  | @snoc tr s e s' hr hs ih =>
    obtain ⟨i1, i2, i3, i4, i5, i6⟩ := ih
    cases hs with
    | seed h1 h2 =>
      rename_i u rest'
      refine ⟨?_, ?_, ?_, ?_, ?_, ?_⟩
      · rw [← i1]; simp [seeded, rest, h1]
      · simp only [seeded, pushes, asked, List.filterMap_append, List.filterMap_cons, List.filterMap_nil, List.append_nil] at i2 ⊢
        have : (List.filterMap (fun e : Ev U => match e with | .seed u => some u | _ => none) tr ++ [u] ++
          List.filterMap (fun e : Ev U => match e with | .push u => some u | _ => none) tr).Perm
          (u :: (List.filterMap (fun e : Ev U => match e with | .seed u => some u | _ => none) tr ++
          List.filterMap (fun e : Ev U => match e with | .push u => some u | _ => none) tr)) := by
          simpa using List.perm_middle
        refine this.trans ((List.Perm.cons u i2).trans ?_)
        rw [← List.append_assoc]
        exact (List.perm_append_singleton u _).symm
      · simpa [asked, answered, died] using i3
      · simp; omega
      · simpa using i5
      · simpa using i6
    | sent h1 =>
      exact ⟨by rw [← i1]; simp [seeded, rest, h1], by simpa [seeded, pushes, asked] using i2,
        by simpa [asked, answered, died] using i3, i4, i5, i6⟩
    | ask h1 =>
      rename_i u rest'
      refine ⟨?_, ?_, ?_, ?_, ?_, ?_⟩
      · rw [← i1]; simp [seeded, rest]
      · rw [h1] at i2; simpa [seeded, pushes, asked] using i2
      · have : (asked (tr ++ [Ev.ask u])) = asked tr ++ [u] := by simp [asked]
        rw [this]
        refine (List.perm_append_singleton u _).trans ?_
        simpa [answered, died] using i3
      · rw [h1] at i4; simp at i4 ⊢; omega
      · exact i5
      · exact i6
    | answer h1 =>
      rename_i u r
      refine ⟨by rw [← i1]; simp [seeded, rest], by simpa [seeded, pushes, asked] using i2, ?_, i4, i5, ?_⟩
      · have e1 : asked (tr ++ [Ev.answer u r]) = asked tr := by simp [asked]
        have e2 : answered (tr ++ [Ev.answer u r]) = answered tr ++ [u] := by simp [answered]
        have e3 : died (tr ++ [Ev.answer u r]) = died tr := by simp [died]
        rw [e1, e2, e3]
        refine i3.trans ?_
        have := (List.perm_cons_erase h1).append_right (answered tr)
        refine (this.trans ?_).append_right (died tr)
        simp only [List.cons_append]
        rw [← List.append_assoc]
        exact (List.perm_append_singleton u _).symm
      · intro o ho
        rcases List.mem_cons.1 ho with rfl | ho
        · cases r with
          | none => exact Or.inl ⟨u, rfl⟩
          | some ps => exact Or.inr (Or.inr ⟨ps, u, rfl⟩)
        · exact i6 o ho
    | die h1 =>
      rename_i u
      refine ⟨by rw [← i1]; simp [seeded, rest], by simpa [seeded, pushes, asked] using i2, ?_, i4, i5, i6⟩
      have e1 : asked (tr ++ [Ev.die u]) = asked tr := by simp [asked]
      have e2 : answered (tr ++ [Ev.die u]) = answered tr := by simp [answered]
      have e3 : died (tr ++ [Ev.die u]) = died tr ++ [u] := by simp [died]
      rw [e1, e2, e3]
      refine i3.trans ?_
      have := ((List.perm_cons_erase h1).append_right (answered tr)).append_right (died tr)
      refine this.trans ?_
      simp only [List.cons_append]
      rw [← List.append_assoc]
      exact (List.perm_append_singleton u _).symm
    | post h1 h2 =>
      rename_i m o pre suf
      refine ⟨by rw [← i1]; simp [seeded, rest], by simpa [seeded, pushes, asked] using i2,
        by simpa [asked, answered, died] using i3, i4, by simp; omega, ?_⟩
      intro o' ho'
      have hold := i6 (m :: o) (by rw [h1]; simp)
      split at ho'
      · exact i6 o' (by rw [h1]; simp only [List.mem_append, List.mem_cons] at ho' ⊢; tauto)
      · rename_i hne
        simp only [List.mem_append, List.mem_cons] at ho'
        rcases ho' with ho' | rfl | ho'
        · exact i6 o' (by rw [h1]; simp [ho'])
        · rcases hold with ⟨u, hu⟩ | ⟨u, hu⟩ | ⟨ps, u, hu⟩
          · cases hu; exact absurd rfl hne
          · cases hu; exact absurd rfl hne
          · cases hu; exact Or.inr (Or.inl ⟨u, rfl⟩)
        · exact i6 o' (by rw [h1]; simp [ho'])
    | recv h1 h2 =>
      refine ⟨by rw [← i1]; simp [seeded, rest, h1], by simpa [seeded, pushes, asked] using i2,
        by simpa [asked, answered, died] using i3, i4, ?_, i6⟩
      rw [h2] at i5; simp at i5 ⊢; omega
    | skip h1 h2 h3 =>
      exact ⟨by rw [← i1]; simp [seeded, rest], by simpa [seeded, pushes, asked] using i2,
        by simpa [asked, answered, died] using i3, i4, i5, i6⟩
    | push h1 h2 h3 h4 =>
      rename_i m u rest'
      refine ⟨by rw [← i1]; simp [seeded, rest], ?_, by simpa [asked, answered, died] using i3, by simp; omega, i5, i6⟩
      have e1 : asked (tr ++ [Ev.push u]) = asked tr := by simp [asked]
      have e2 : seeded (tr ++ [Ev.push u]) = seeded tr := by simp [seeded]
      have e3 : pushes (tr ++ [Ev.push u]) = pushes tr ++ [u] := by simp [pushes]
      rw [e1, e2, e3]
      rw [← List.append_assoc, ← List.append_assoc]
      exact i2.append_right [u]
    | drained h1 h2 =>
      exact ⟨by rw [← i1]; simp [seeded, rest, h1], by simpa [seeded, pushes, asked] using i2,
        by simpa [asked, answered, died] using i3, i4, i5, i6⟩
    | active h1 h2 =>
      refine ⟨?_, by simpa [seeded, pushes, asked] using i2, by simpa [asked, answered, died] using i3, i4, i5, i6⟩
      rw [← i1]; by_cases hc : s.count - 1 = 0 <;> simp [seeded, rest, h1, hc]
    | inactive h1 h2 =>
      refine ⟨?_, by simpa [seeded, pushes, asked] using i2, by simpa [asked, answered, died] using i3, i4, i5, i6⟩
      rw [← i1]; by_cases hc : s.count - 1 = 0 <;> simp [seeded, rest, h1, hc]
    | underflow h1 h2 h3 =>
      exact ⟨by rw [← i1]; simp [seeded, rest, h1], by simpa [seeded, pushes, asked] using i2,
        by simpa [asked, answered, died] using i3, i4, i5, i6⟩
    | peers h1 h2 =>
      exact ⟨by rw [← i1]; simp [seeded, rest, h1], by simpa [seeded, pushes, asked] using i2,
        by simpa [asked, answered, died] using i3, i4, i5, i6⟩
    | timeout h1 h2 =>
      exact ⟨by rw [← i1]; simp [seeded, rest, h1], by simpa [seeded, pushes, asked] using i2,
        by simpa [asked, answered, died] using i3, i4, i5, i6⟩

/-! ## The counter -/

structure Count (cap : Nat) (tr : List (Ev U)) (s : St U) : Prop where
  count : s.count = (rest s).length + s.urls.length + s.tasks.length + s.outs.length + (pend s).countP Msg.isFinal + (died tr).length
  fifo : ∀ A B, pend s = A ++ B →
    B.countP Msg.isPeers ≤ B.countP Msg.isActive + s.outs.countP fun o => o.length = 1 && o.all Msg.isActive
  np : s.main ≠ .panicked
  full : ∀ m, s.main = .handling m → m.isFinal = true → s.stack ≠ [] → 2 ≤ s.count
  over : s.main = .done → s.count = 0 ∧ s.stack = []
  pos : s.main ≠ .done → s.count ≠ 0

theorem fifo_snoc {l : List (Msg U)} {m : Msg U} {n n' : Nat}
    (h : ∀ A B, l = A ++ B → B.countP Msg.isPeers ≤ B.countP Msg.isActive + n)
    (hm : [m].countP Msg.isPeers + n ≤ [m].countP Msg.isActive + n') :
    ∀ A B, l ++ [m] = A ++ B → B.countP Msg.isPeers ≤ B.countP Msg.isActive + n' := by
  intro A B e
  rcases List.eq_nil_or_concat B with rfl | ⟨B', b, rfl⟩
  · simp
  · rw [List.concat_eq_append, ← List.append_assoc] at e
    obtain ⟨e1, e2⟩ := List.append_inj' e rfl
    cases e2
    have := h A B' e1
    rw [List.concat_eq_append, List.countP_append, List.countP_append]
    omega

theorem count_inv (cap : Nat) (hcap : 1 ≤ cap) (seeds : List U) (hne : seeds ≠ []) {tr : List (Ev U)} {s : St U}
    (h : Run cap (init seeds) tr s) : Count cap tr s := by
  induction h with
  | nil =>
    refine ⟨by simp [init, rest, pend, current, died], ?_, by simp [init], by simp [init], by simp [init],
      by simp [init, List.length_eq_zero_iff, hne]⟩
    intro A B e
    have : B = [] := by
      have := congrArg List.length e
      simp [init, pend, current] at this
      exact List.length_eq_zero_iff.1 (by omega)
    simp [this]
  | @snoc tr s e s' hr hs ih =>
    have hf := flow cap seeds hr
    obtain ⟨i1, i2, i3, i4, i5, i6⟩ := ih
    cases hs with
    | seed h1 h2 =>
      refine ⟨?_, ?_, by simp, by simp, by simp, ?_⟩
      · simp only [rest, h1, pend, current, died, List.length_cons, List.filterMap_append, List.filterMap_cons, List.filterMap_nil,
          List.append_nil, List.length_append, List.length_nil] at i1 ⊢
        omega
      · simpa [pend, current, h1] using i2
      · intro _; exact i6 (by simp [h1])
    | sent h1 =>
      refine ⟨?_, ?_, by simp, by simp, by simp, ?_⟩
      · simpa [rest, h1, pend, current, died] using i1
      · simpa [pend, current, h1] using i2
      · intro _; exact i6 (by simp [h1])
    | ask h1 =>
      refine ⟨?_, ?_, i3, i4, i5, i6⟩
      · rw [h1] at i1
        simp only [rest, pend, current, died, List.length_cons, List.filterMap_append, List.filterMap_cons, List.filterMap_nil,
          List.append_nil] at i1 ⊢
        omega
      · simpa [pend, current] using i2
    | answer h1 =>
      rename_i u r
      refine ⟨?_, ?_, i3, i4, i5, i6⟩
      · have h2 : (s.tasks.erase u).length + 1 = s.tasks.length := by
          have := List.length_pos_of_mem h1
          rw [List.length_erase_of_mem h1]; omega
        simp only [rest, pend, current, died, List.length_cons, List.filterMap_append, List.filterMap_cons, List.filterMap_nil,
          List.append_nil] at i1 ⊢
        omega
      · intro A B e
        refine Nat.le_trans (i2 A B e) ?_
        simp only [List.countP_cons]
        omega
    | die h1 =>
      rename_i u
      refine ⟨?_, i2, i3, i4, i5, i6⟩
      have h2 : (s.tasks.erase u).length + 1 = s.tasks.length := by
        have := List.length_pos_of_mem h1
        rw [List.length_erase_of_mem h1]; omega
      simp only [rest, pend, current, died, List.length_cons, List.filterMap_append, List.filterMap_cons, List.filterMap_nil,
        List.append_nil, List.length_append, List.length_nil] at i1 ⊢
      omega
    | post h1 h2 =>
      rename_i m o pre suf
      have hold := hf.outs (m :: o) (by rw [h1]; simp)
      rw [h1] at i1 i2
      refine ⟨?_, ?_, i3, i4, i5, i6⟩
      · rcases hold with ⟨u, hu⟩ | ⟨u, hu⟩ | ⟨ps, u, hu⟩ <;> cases hu <;>
        · simp only [rest, pend, current, died, List.length_cons, List.filterMap_append, List.filterMap_cons, List.filterMap_nil,
            List.append_nil, List.length_append, List.length_nil, List.countP_append, List.countP_cons, List.countP_nil, if_true,
            reduceCtorEq, if_false, Msg.isFinal] at i1 ⊢
          omega
      · have e0 : pend { s with outs := pre ++ (if o = [] then suf else o :: suf), msgs := s.msgs ++ [m] } = pend s ++ [m] := by
          simp [pend, current]
        rw [e0]
        refine fifo_snoc i2 ?_
        rcases hold with ⟨u, hu⟩ | ⟨u, hu⟩ | ⟨ps, u, hu⟩ <;> cases hu <;>
        · simp only [List.countP_append, List.countP_cons, List.countP_nil, Msg.isPeers, Msg.isActive, if_true, reduceCtorEq, if_false,
            List.length_cons, List.length_nil, List.all_cons, List.all_nil]
          simp
          try omega
    | recv h1 h2 =>
      rename_i m rest'
      have e0 : pend { s with main := .draining m, msgs := rest' } = pend s := by simp [pend, current, h1, h2]
      refine ⟨?_, ?_, by simp, by simp, by simp, fun _ => i6 (by simp [h1])⟩
      · rw [e0]; simpa [rest, h1, died] using i1
      · rw [e0]; exact i2
    | skip h1 h2 h3 =>
      exact ⟨by simpa [rest, died, pend, current] using i1, i2, i3, by simp [h1], by simp [h1], i6⟩
    | push h1 h2 h3 h4 =>
      refine ⟨?_, i2, i3, by simp [h1], by simp [h1], by simp⟩
      simp only [rest, pend, current, died, List.length_cons, List.filterMap_append, List.filterMap_cons, List.filterMap_nil,
        List.append_nil, List.length_append, List.length_nil] at i1 ⊢
      omega
    | drained h1 h2 =>
      rename_i m
      have e0 : pend { s with main := .handling m } = pend s := by simp [pend, current, h1]
      refine ⟨?_, ?_, by simp, ?_, by simp, fun _ => i6 (by simp [h1])⟩
      · rw [e0]; simpa [rest, h1, died] using i1
      · rw [e0]; exact i2
      · intro m' hm hfin hst
        cases hm
        rcases h2 with h2 | ⟨u, r, hs1, hs2, hs3⟩
        · exact absurd h2 hst
        · simp only [pend, current, h1, List.countP_append, List.countP_cons, List.countP_nil, hfin, if_true] at i1
          show 2 ≤ s.count
          omega
    | active h1 h2 =>
      rename_i u
      have e0 : ∀ x, x = Main.done ∨ x = Main.waiting → ∀ a v c, pend { s with main := x, active := a, visited := v, count := c } = s.msgs := by
        rintro x (rfl | rfl) a v c <;> simp [pend, current]
      have e2 : pend s = .active u :: s.msgs := by simp [pend, current, h1]
      have e1 : (if s.count - 1 = 0 then Main.done else Main.waiting : Main U) = .done ∨
        (if s.count - 1 = 0 then Main.done else Main.waiting : Main U) = .waiting := by split <;> simp
      refine ⟨?_, ?_, ?_, ?_, ?_, ?_⟩
      · rw [e0 _ e1]
        have hr0 : ∀ x : Main U, x = .done ∨ x = .waiting → ∀ a v c, rest { s with main := x, active := a, visited := v, count := c } = [] := by
          rintro x (rfl | rfl) a v c <;> rfl
        rw [hr0 _ e1]
        have hr1 : rest s = [] := by simp [rest, h1]
        rw [e2, hr1] at i1
        simp only [died, List.filterMap_append, List.filterMap_cons, List.filterMap_nil, List.append_nil, List.countP_cons,
          Msg.isFinal, if_true, List.length_nil] at i1 ⊢
        omega
      · rw [e0 _ e1]
        intro A B e
        exact i2 (.active u :: A) B (by rw [e2, e]; rfl)
      · rcases e1 with h | h <;> simp [h]
      · intro m hm; rcases e1 with h | h <;> simp [h] at hm
      · intro hm
        by_cases hc : s.count - 1 = 0
        · refine ⟨hc, ?_⟩
          by_contra hst
          have := i4 _ h1 rfl hst
          omega
        · simp [hc] at hm
      · intro hm
        by_cases hc : s.count - 1 = 0
        · simp [hc] at hm
        · exact hc
    | inactive h1 h2 =>
      rename_i u
      have e0 : ∀ x, x = Main.done ∨ x = Main.waiting → ∀ v c, pend { s with main := x, visited := v, count := c } = s.msgs := by
        rintro x (rfl | rfl) v c <;> simp [pend, current]
      have e2 : pend s = .inactive u :: s.msgs := by simp [pend, current, h1]
      have e1 : (if s.count - 1 = 0 then Main.done else Main.waiting : Main U) = .done ∨
        (if s.count - 1 = 0 then Main.done else Main.waiting : Main U) = .waiting := by split <;> simp
      refine ⟨?_, ?_, ?_, ?_, ?_, ?_⟩
      · rw [e0 _ e1]
        have hr0 : ∀ x : Main U, x = .done ∨ x = .waiting → ∀ v c, rest { s with main := x, visited := v, count := c } = [] := by
          rintro x (rfl | rfl) v c <;> rfl
        rw [hr0 _ e1]
        have hr1 : rest s = [] := by simp [rest, h1]
        rw [e2, hr1] at i1
        simp only [died, List.filterMap_append, List.filterMap_cons, List.filterMap_nil, List.append_nil, List.countP_cons,
          Msg.isFinal, if_true, List.length_nil] at i1 ⊢
        omega
      · rw [e0 _ e1]
        intro A B e
        exact i2 (.inactive u :: A) B (by rw [e2, e]; rfl)
      · rcases e1 with h | h <;> simp [h]
      · intro m hm; rcases e1 with h | h <;> simp [h] at hm
      · intro hm
        by_cases hc : s.count - 1 = 0
        · refine ⟨hc, ?_⟩
          by_contra hst
          have := i4 _ h1 rfl hst
          omega
        · simp [hc] at hm
      · intro hm
        by_cases hc : s.count - 1 = 0
        · simp [hc] at hm
        · exact hc
    | underflow h1 h2 h3 => exact absurd h3 (i6 (by simp [h1]))
    | peers h1 h2 =>
      rename_i ps l
      have e2 : pend s = .peers ps :: s.msgs := by simp [pend, current, h1]
      have e0 : ∀ st, pend { s with main := .waiting, stack := st } = s.msgs := by intro st; simp [pend, current]
      refine ⟨?_, ?_, by simp, by simp, by simp, fun _ => i6 (by simp [h1])⟩
      · rw [e0]
        rw [e2] at i1
        simp only [rest, h1, died, List.filterMap_append, List.filterMap_cons, List.filterMap_nil, List.append_nil, List.countP_cons,
          Msg.isFinal, if_false, List.length_nil, reduceCtorEq] at i1 ⊢
        simpa using i1
      · rw [e0]
        intro A B e
        exact i2 (.peers ps :: A) B (by rw [e2, e]; rfl)
    | timeout h1 h2 =>
      exact ⟨by simpa [rest, died, pend, current] using i1, i2, i3, by simp [h1], by simp [h1], i6⟩

/-! ## What is held in the messages, the stack and the sets -/

theorem mem_held_post {s : St U} {m m' : Msg U} {o : List (Msg U)} {pre suf : List (List (Msg U))}
    (h : s.outs = pre ++ (m :: o) :: suf) :
    m' ∈ held { s with outs := pre ++ (if o = [] then suf else o :: suf), msgs := s.msgs ++ [m] } ↔ m' ∈ held s := by
  have : (if o = [] then suf else o :: suf).flatten = o ++ suf.flatten := by
    split
    · simp [*]
    · rfl
  simp only [held, pend, current, h, List.flatten_append, this, List.mem_append, List.flatten_cons, List.mem_cons, List.not_mem_nil,
    or_false]
  tauto

theorem held_recv {s : St U} {m : Msg U} {r : List (Msg U)} (h1 : s.main = .waiting) (h2 : s.msgs = m :: r) :
    held { s with main := .draining m, msgs := r } = held s := by simp [held, pend, current, h1, h2]

theorem held_drained {s : St U} {m : Msg U} (h1 : s.main = .draining m) : held { s with main := .handling m } = held s := by
  simp [held, pend, current, h1]

theorem held_handle {s : St U} {m : Msg U} (h1 : s.main = .handling m) : held s = m :: (s.msgs ++ s.outs.flatten) := by
  simp [held, pend, current, h1]

structure Content (tr : List (Ev U)) (s : St U) : Prop where
  act1 : ∀ u, (u ∈ s.active ∨ Msg.active u ∈ held s) → ∃ ps, Ev.answer u (some ps) ∈ tr
  act2 : ∀ u ps, Ev.answer u (some ps) ∈ tr → u ∈ s.active ∨ Msg.active u ∈ held s
  msg : ∀ u, (Msg.active u ∈ held s ∨ Msg.inactive u ∈ held s) → u ∈ asked tr
  peers1 : ∀ p, (p ∈ pushes tr ∨ p ∈ s.stack ∨ ∃ ps, p ∈ ps ∧ Msg.peers ps ∈ held s) → ∃ u ps, Ev.answer u (some ps) ∈ tr ∧ p ∈ ps
  peers2 : ∀ u ps, Ev.answer u (some ps) ∈ tr →
    Msg.peers ps ∈ held s ∨ (s.addPeers = true → ∀ p ∈ ps, p ∈ s.stack ∨ p ∈ s.visited)
  pushNodup : (pushes tr).Nodup
  pushVis : ∀ u ∈ pushes tr, u ∈ s.visited
  vis : ∀ u ∈ s.visited, u ∈ asked tr ∨ u ∈ s.urls
  time1 : s.addPeers = false → s.stack = []
  time2 : s.addPeers = true ↔ Ev.timeout ∉ tr
  nodup : s.active.Nodup

/-- Steps that only move requests and messages. -/
theorem Content.same {tr : List (Ev U)} {e : Ev U} {s s' : St U} (i : Content tr s)
    (h1 : s'.active = s.active) (h2 : ∀ m, m ∈ held s' ↔ m ∈ held s) (h3 : s'.stack = s.stack) (h4 : s'.addPeers = s.addPeers)
    (h5 : s'.visited = s.visited) (h6 : ∀ u, u ∈ asked tr ∨ u ∈ s.urls → u ∈ asked (tr ++ [e]) ∨ u ∈ s'.urls)
    (e1 : ∀ u r, e ≠ .answer u r) (e2 : pushes (tr ++ [e]) = pushes tr) (e3 : e ≠ .timeout) : Content (tr ++ [e]) s' := by
  have em : ∀ u r, Ev.answer u r ∈ tr ++ [e] ↔ Ev.answer u r ∈ tr := by
    intro u r
    simp only [List.mem_append, List.mem_singleton]
    exact ⟨fun h => h.resolve_right fun h => e1 u r h.symm, Or.inl⟩
  have ea : ∀ u, u ∈ asked tr → u ∈ asked (tr ++ [e]) := by
    intro u hu; simp only [asked, List.filterMap_append, List.mem_append]; exact Or.inl hu
  obtain ⟨i1, i2, i3, i4, i5, i6, i7, i8, i9, i10, i11⟩ := i
  refine ⟨?_, ?_, ?_, ?_, ?_, ?_, ?_, ?_, ?_, ?_, ?_⟩
  · simpa only [em, h1, h2] using i1
  · simpa only [em, h1, h2] using i2
  · intro u hu; simp only [h2] at hu; exact ea u (i3 u hu)
  · simpa only [em, e2, h2, h3] using i4
  · simpa only [em, h2, h3, h4, h5] using i5
  · rw [e2]; exact i6
  · rw [e2, h5]; exact i7
  · rw [h5]; exact fun u hu => h6 u (i8 u hu)
  · rw [h3, h4]; exact i9
  · rw [h4, i10]; simp only [List.mem_append, List.mem_singleton, not_or]
    exact ⟨fun h => ⟨h, fun h => e3 h.symm⟩, fun h => h.1⟩
  · rw [h1]; exact i11

theorem content (cap : Nat) (hcap : 1 ≤ cap) (seeds : List U) (hne : seeds ≠ []) {tr : List (Ev U)} {s : St U} (h : Run cap (init seeds) tr s) : Content tr s := by
  induction h with
  | nil => constructor <;> simp [init, held, pend, current, pushes]
  | @snoc tr s e s' hr hs ih =>
    have hf := flow cap seeds hr
    cases hs with
    | seed h1 h2 =>
      refine ih.same rfl (fun m => by simp [held, pend, current, h1]) rfl rfl rfl ?_ (by simp) (by simp [pushes]) (by simp)
      intro u hu; simp only [asked, List.filterMap_append, List.mem_append] at hu ⊢; tauto
    | sent h1 =>
      refine ih.same rfl (fun m => by simp [held, pend, current, h1]) rfl rfl rfl ?_ (by simp) (by simp [pushes]) (by simp)
      intro u hu; simp only [asked, List.filterMap_append, List.mem_append] at hu ⊢; tauto
    | ask h1 =>
      refine ih.same rfl (fun m => by simp [held, pend, current]) rfl rfl rfl ?_ (by simp) (by simp [pushes]) (by simp)
      intro u hu
      rw [h1] at hu
      simp only [asked, List.filterMap_append, List.mem_append, List.filterMap_cons, List.filterMap_nil, List.mem_cons,
        List.not_mem_nil, or_false] at hu ⊢
      tauto
    | answer h1 =>
      rename_i u r
      obtain ⟨i1, i2, i3, i4, i5, i6, i7, i8, i9, i10, i11⟩ := ih
      have ea : asked (tr ++ [Ev.answer u r]) = asked tr := by simp [asked]
      have ep : pushes (tr ++ [Ev.answer u r]) = pushes tr := by simp [pushes]
      have eh : ∀ m, m ∈ held { s with tasks := s.tasks.erase u, outs := replies u r :: s.outs } ↔ m ∈ replies u r ∨ m ∈ held s := by
        intro m; simp only [held, pend, current, List.flatten_cons, List.mem_append]; tauto
      have hu : u ∈ asked tr := hf.task.mem_iff.2 (by simp [h1])
      have em : ∀ v q, Ev.answer v q ∈ tr ++ [Ev.answer u r] ↔ Ev.answer v q ∈ tr ∨ (v = u ∧ q = r) := by
        intro v q; simp
      refine ⟨?_, ?_, ?_, ?_, ?_, ?_, ?_, ?_, i9, ?_, i11⟩
      · intro v hv
        simp only [em, eh] at hv ⊢
        rcases hv with hv | hv | hv
        · obtain ⟨ps, h⟩ := i1 v (Or.inl hv); exact ⟨ps, Or.inl h⟩
        · cases r with
          | none => simp [replies] at hv
          | some ps => simp [replies] at hv; exact ⟨ps, Or.inr ⟨hv, rfl⟩⟩
        · obtain ⟨ps, h⟩ := i1 v (Or.inr hv); exact ⟨ps, Or.inl h⟩
      · intro v ps hv
        simp only [em, eh] at hv ⊢
        rcases hv with hv | ⟨rfl, rfl⟩
        · rcases i2 v ps hv with h | h
          · exact Or.inl h
          · exact Or.inr (Or.inr h)
        · exact Or.inr (Or.inl (by simp [replies]))
      · intro v hv
        rw [ea]
        simp only [eh] at hv
        have key : (Msg.active v ∈ replies u r ∨ Msg.inactive v ∈ replies u r) → v = u := by
          cases r <;> simp [replies]
        by_cases hvu : v = u
        · rw [hvu]; exact hu
        · exact i3 v (by tauto)
      · intro p hp
        rw [ep] at hp
        simp only [em, eh] at hp ⊢
        rcases hp with hp | hp | ⟨ps, hp, hp' | hp'⟩
        · obtain ⟨v, ps, h, h'⟩ := i4 p (Or.inl hp); exact ⟨v, ps, Or.inl h, h'⟩
        · obtain ⟨v, ps, h, h'⟩ := i4 p (Or.inr (Or.inl hp)); exact ⟨v, ps, Or.inl h, h'⟩
        · cases r with
          | none => simp [replies] at hp'
          | some qs => simp [replies] at hp'; subst hp'; exact ⟨u, ps, Or.inr ⟨rfl, rfl⟩, hp⟩
        · obtain ⟨v, ps, h, h'⟩ := i4 p (Or.inr (Or.inr ⟨ps, hp, hp'⟩)); exact ⟨v, ps, Or.inl h, h'⟩
      · intro v ps hv
        simp only [em, eh] at hv ⊢
        rcases hv with hv | ⟨rfl, rfl⟩
        · rcases i5 v ps hv with h | h
          · exact Or.inl (Or.inr h)
          · exact Or.inr h
        · exact Or.inl (Or.inl (by simp [replies]))
      · rw [ep]; exact i6
      · rw [ep]; exact i7
      · rw [ea]; exact i8
      · rw [i10]; simp
    | die h1 =>
      refine ih.same rfl (fun m => by simp [held, pend, current]) rfl rfl rfl ?_ (by simp) (by simp [pushes]) (by simp)
      intro u hu; simp only [asked, List.filterMap_append, List.mem_append] at hu ⊢; tauto
    | post h1 h2 =>
      refine ih.same rfl (fun m => mem_held_post h1) rfl rfl rfl ?_ (by simp) (by simp [pushes]) (by simp)
      intro u hu; simp only [asked, List.filterMap_append, List.mem_append] at hu ⊢; tauto
    | recv h1 h2 =>
      refine ih.same rfl (fun m => by rw [held_recv h1 h2]) rfl rfl rfl ?_ (by simp) (by simp [pushes]) (by simp)
      intro u hu; simp only [asked, List.filterMap_append, List.mem_append] at hu ⊢; tauto
    | skip h1 h2 h3 =>
      rename_i m u rest'
      obtain ⟨i1, i2, i3, i4, i5, i6, i7, i8, i9, i10, i11⟩ := ih
      have ea : asked (tr ++ [Ev.skip u]) = asked tr := by simp [asked]
      have ep : pushes (tr ++ [Ev.skip u]) = pushes tr := by simp [pushes]
      have em : ∀ v q, Ev.answer v q ∈ tr ++ [Ev.skip u] ↔ Ev.answer v q ∈ tr := by intro v q; simp
      refine ⟨by simp only [em]; exact i1, by simp only [em]; exact i2, by rw [ea]; exact i3, ?_, ?_, by rw [ep]; exact i6,
        by rw [ep]; exact i7, by rw [ea]; exact i8, ?_, by rw [i10]; simp, i11⟩
      · intro p hp
        simp only [em, ep] at hp ⊢
        refine i4 p ?_
        rw [h2]
        rcases hp with hp | hp | hp
        · exact Or.inl hp
        · exact Or.inr (Or.inl (List.mem_cons_of_mem _ hp))
        · exact Or.inr (Or.inr hp)
      · intro v ps hv
        simp only [em] at hv
        rcases i5 v ps hv with h | h
        · exact Or.inl h
        · refine Or.inr fun ht p hp => ?_
          rcases h ht p hp with h | h
          · rw [h2] at h
            rcases List.mem_cons.1 h with rfl | h
            · exact Or.inr h3
            · exact Or.inl h
          · exact Or.inr h
      · intro ht
        have := i9 ht
        rw [h2] at this
        cases this
    | push h1 h2 h3 h4 =>
      rename_i m u rest'
      obtain ⟨i1, i2, i3, i4, i5, i6, i7, i8, i9, i10, i11⟩ := ih
      have ea : asked (tr ++ [Ev.push u]) = asked tr := by simp [asked]
      have ep : pushes (tr ++ [Ev.push u]) = pushes tr ++ [u] := by simp [pushes]
      have em : ∀ v q, Ev.answer v q ∈ tr ++ [Ev.push u] ↔ Ev.answer v q ∈ tr := by intro v q; simp
      refine ⟨by simp only [em]; exact i1, by simp only [em]; exact i2, by rw [ea]; exact i3, ?_, ?_, ?_, ?_, ?_, ?_, by rw [i10]; simp, i11⟩
      · intro p hp
        simp only [em, ep, List.mem_append, List.mem_singleton] at hp ⊢
        refine i4 p ?_
        rw [h2]
        rcases hp with (hp | rfl) | hp | hp
        · exact Or.inl hp
        · exact Or.inr (Or.inl (List.mem_cons_self ..))
        · exact Or.inr (Or.inl (List.mem_cons_of_mem _ hp))
        · exact Or.inr (Or.inr hp)
      · intro v ps hv
        simp only [em] at hv
        rcases i5 v ps hv with h | h
        · exact Or.inl h
        · refine Or.inr fun ht p hp => ?_
          simp only [mem_ins]
          rcases h ht p hp with h | h
          · rw [h2] at h
            rcases List.mem_cons.1 h with rfl | h
            · exact Or.inr (Or.inl rfl)
            · exact Or.inl h
          · exact Or.inr (Or.inr h)
      · rw [ep, List.nodup_append]
        refine ⟨i6, List.nodup_singleton _, ?_⟩
        intro a ha b hb
        rw [List.mem_singleton] at hb
        rintro rfl
        exact h3 (hb ▸ i7 a ha)
      · rw [ep]
        intro v hv
        simp only [List.mem_append, List.mem_singleton, mem_ins] at hv ⊢
        rcases hv with hv | hv
        · exact Or.inr (i7 v hv)
        · exact Or.inl hv
      · rw [ea]
        intro v hv
        simp only [List.mem_append, List.mem_singleton, mem_ins] at hv ⊢
        rcases hv with hv | hv
        · exact Or.inr (Or.inr hv)
        · rcases i8 v hv with h | h
          · exact Or.inl h
          · exact Or.inr (Or.inl h)
      · intro ht
        have := i9 ht
        rw [h2] at this
        cases this
    | drained h1 h2 =>
      refine ih.same rfl (fun m => by rw [held_drained h1]) rfl rfl rfl ?_ (by simp) (by simp [pushes]) (by simp)
      intro u hu; simp only [asked, List.filterMap_append, List.mem_append] at hu ⊢; tauto
    | active h1 h2 =>
      rename_i u
      obtain ⟨i1, i2, i3, i4, i5, i6, i7, i8, i9, i10, i11⟩ := ih
      have ea : asked (tr ++ [Ev.handle]) = asked tr := by simp [asked]
      have ep : pushes (tr ++ [Ev.handle]) = pushes tr := by simp [pushes]
      have em : ∀ v q, Ev.answer v q ∈ tr ++ [Ev.handle] ↔ Ev.answer v q ∈ tr := by intro v q; simp
      have e0 : ∀ m, m ∈ held s ↔ m = .active u ∨ m ∈ s.msgs ++ s.outs.flatten := by
        intro m; rw [held_handle h1, List.mem_cons]
      have e1 : held { s with main := if s.count - 1 = 0 then .done else .waiting, active := ins u s.active,
                              visited := ins u s.visited, count := s.count - 1 } = s.msgs ++ s.outs.flatten := by
        by_cases hc : s.count - 1 = 0 <;> simp [held, pend, current, hc]
      simp only [e0] at i1 i2 i3 i4 i5
      refine ⟨?_, ?_, ?_, ?_, ?_, by rw [ep]; exact i6, ?_, ?_, i9, by rw [i10]; simp, ins_nodup i11⟩
      · intro v hv
        simp only [em, e1, mem_ins] at hv ⊢
        refine i1 v ?_
        rcases hv with (rfl | hv) | hv
        · exact Or.inr (Or.inl rfl)
        · exact Or.inl hv
        · exact Or.inr (Or.inr hv)
      · intro v ps hv
        simp only [em, e1, mem_ins] at hv ⊢
        rcases i2 v ps hv with h | h | h
        · exact Or.inl (Or.inr h)
        · cases h; exact Or.inl (Or.inl rfl)
        · exact Or.inr h
      · intro v hv
        simp only [ea, e1] at hv ⊢
        exact i3 v (hv.imp Or.inr Or.inr)
      · intro p hp
        simp only [em, ep, e1] at hp ⊢
        refine i4 p (hp.imp_right (Or.imp_right ?_))
        rintro ⟨ps, h, h'⟩; exact ⟨ps, h, Or.inr h'⟩
      · intro v ps hv
        simp only [em, e1, mem_ins] at hv ⊢
        rcases i5 v ps hv with (h | h) | h
        · cases h
        · exact Or.inl h
        · exact Or.inr fun ht p hp => (h ht p hp).imp_right Or.inr
      · rw [ep]; intro v hv; simp only [mem_ins]; exact Or.inr (i7 v hv)
      · rw [ea]
        intro v hv
        simp only [mem_ins] at hv
        rcases hv with rfl | hv
        · exact Or.inl (i3 v (Or.inl (Or.inl rfl)))
        · exact i8 v hv
    | inactive h1 h2 =>
      rename_i u
      obtain ⟨i1, i2, i3, i4, i5, i6, i7, i8, i9, i10, i11⟩ := ih
      have ea : asked (tr ++ [Ev.handle]) = asked tr := by simp [asked]
      have ep : pushes (tr ++ [Ev.handle]) = pushes tr := by simp [pushes]
      have em : ∀ v q, Ev.answer v q ∈ tr ++ [Ev.handle] ↔ Ev.answer v q ∈ tr := by intro v q; simp
      have e0 : ∀ m, m ∈ held s ↔ m = .inactive u ∨ m ∈ s.msgs ++ s.outs.flatten := by
        intro m; rw [held_handle h1, List.mem_cons]
      have e1 : held { s with main := if s.count - 1 = 0 then .done else .waiting,
                              visited := ins u s.visited, count := s.count - 1 } = s.msgs ++ s.outs.flatten := by
        by_cases hc : s.count - 1 = 0 <;> simp [held, pend, current, hc]
      simp only [e0] at i1 i2 i3 i4 i5
      refine ⟨?_, ?_, ?_, ?_, ?_, by rw [ep]; exact i6, ?_, ?_, i9, by rw [i10]; simp, i11⟩
      · intro v hv
        simp only [em, e1, mem_ins] at hv ⊢
        exact i1 v (hv.imp_right Or.inr)
      · intro v ps hv
        simp only [em, e1, mem_ins] at hv ⊢
        rcases i2 v ps hv with h | h | h
        · exact Or.inl h
        · cases h
        · exact Or.inr h
      · intro v hv
        simp only [ea, e1] at hv ⊢
        exact i3 v (hv.imp Or.inr Or.inr)
      · intro p hp
        simp only [em, ep, e1] at hp ⊢
        refine i4 p (hp.imp_right (Or.imp_right ?_))
        rintro ⟨ps, h, h'⟩; exact ⟨ps, h, Or.inr h'⟩
      · intro v ps hv
        simp only [em, e1, mem_ins] at hv ⊢
        rcases i5 v ps hv with (h | h) | h
        · cases h
        · exact Or.inl h
        · exact Or.inr fun ht p hp => (h ht p hp).imp_right Or.inr
      · rw [ep]; intro v hv; simp only [mem_ins]; exact Or.inr (i7 v hv)
      · rw [ea]
        intro v hv
        simp only [mem_ins] at hv
        rcases hv with rfl | hv
        · exact Or.inl (i3 v (Or.inr (Or.inl rfl)))
        · exact i8 v hv
    | underflow h1 h2 h3 =>
      exact absurd h3 ((count_inv cap hcap seeds hne hr).pos (by simp [h1]))
    | peers h1 h2 =>
      rename_i ps l
      obtain ⟨i1, i2, i3, i4, i5, i6, i7, i8, i9, i10, i11⟩ := ih
      have ea : asked (tr ++ [Ev.handle]) = asked tr := by simp [asked]
      have ep : pushes (tr ++ [Ev.handle]) = pushes tr := by simp [pushes]
      have em : ∀ v q, Ev.answer v q ∈ tr ++ [Ev.handle] ↔ Ev.answer v q ∈ tr := by intro v q; simp
      have e0 : ∀ m, m ∈ held s ↔ m = .peers ps ∨ m ∈ s.msgs ++ s.outs.flatten := by
        intro m; rw [held_handle h1, List.mem_cons]
      have e1 : ∀ st, held { s with main := .waiting, stack := st } = s.msgs ++ s.outs.flatten := by
        intro st; simp [held, pend, current]
      simp only [e0] at i1 i2 i3 i4 i5
      refine ⟨?_, ?_, ?_, ?_, ?_, by rw [ep]; exact i6, by rw [ep]; exact i7, by rw [ea]; exact i8, ?_, by rw [i10]; simp, i11⟩
      · intro v hv
        simp only [em, e1] at hv ⊢
        exact i1 v (hv.imp_right Or.inr)
      · intro v qs hv
        simp only [em, e1] at hv ⊢
        rcases i2 v qs hv with h | h | h
        · exact Or.inl h
        · cases h
        · exact Or.inr h
      · intro v hv
        simp only [ea, e1] at hv ⊢
        exact i3 v (hv.imp Or.inr Or.inr)
      · intro p hp
        simp only [em, ep, e1] at hp ⊢
        refine i4 p ?_
        rcases hp with hp | hp | ⟨qs, hp, hp'⟩
        · exact Or.inl hp
        · split at hp
          · rcases List.mem_append.1 hp with hp | hp
            · exact Or.inr (Or.inr ⟨ps, h2.mem_iff.1 hp, Or.inl rfl⟩)
            · exact Or.inr (Or.inl hp)
          · exact Or.inr (Or.inl hp)
        · exact Or.inr (Or.inr ⟨qs, hp, Or.inr hp'⟩)
      · intro v qs hv
        simp only [em, e1] at hv ⊢
        rcases i5 v qs hv with (h | h) | h
        · cases h
          refine Or.inr fun ht p hp => ?_
          rw [if_pos ht]
          exact Or.inl (List.mem_append_left _ (h2.mem_iff.2 hp))
        · exact Or.inl h
        · refine Or.inr fun ht p hp => ?_
          rw [if_pos ht]
          exact (h ht p hp).imp_left (List.mem_append_right _)
      · intro ht
        have ht' : s.addPeers = false := ht
        simp only [ht', Bool.false_eq_true, if_false]
        exact i9 ht'
    | timeout h1 h2 =>
      obtain ⟨i1, i2, i3, i4, i5, i6, i7, i8, i9, i10, i11⟩ := ih
      have ea : asked (tr ++ [Ev.timeout]) = asked tr := by simp [asked]
      have ep : pushes (tr ++ [Ev.timeout]) = pushes tr := by simp [pushes]
      have em : ∀ v q, Ev.answer v q ∈ tr ++ [Ev.timeout] ↔ Ev.answer v q ∈ tr := by intro v q; simp
      refine ⟨by simp only [em]; exact i1, by simp only [em]; exact i2, by rw [ea]; exact i3, ?_, ?_, by rw [ep]; exact i6,
        by rw [ep]; exact i7, by rw [ea]; exact i8, fun _ => rfl, by simp, i11⟩
      · intro p hp
        simp only [em, ep] at hp ⊢
        refine i4 p ?_
        rcases hp with hp | hp | hp
        · exact Or.inl hp
        · cases hp
        · exact Or.inr (Or.inr hp)
      · intro v ps hv
        exact Or.inr fun ht => by cases ht

/-! ## Executions -/

theorem Run.append {cap : Nat} {s₀ s₁ s₂ : St U} {tr tr' : List (Ev U)} (h : Run cap s₀ tr s₁) (h' : Run cap s₁ tr' s₂) :
    Run cap s₀ (tr ++ tr') s₂ := by
  induction h' with
  | nil => simpa using h
  | snoc _ hs ih => rw [← List.append_assoc]; exact .snoc ih hs

theorem Run.one {cap : Nat} {s s' : St U} {e : Ev U} (h : Step cap s e s') : Run cap s [e] s' := .snoc .nil h

theorem Run.cons {cap : Nat} {s s' s'' : St U} {e : Ev U} {tr : List (Ev U)} (h : Step cap s e s') (h' : Run cap s' tr s'') :
    Run cap s (e :: tr) s'' := Run.append (.one h) h'

/-- One way to take a step, for examples. -/
def exec (cap : Nat) (s : St U) : Ev U → Option (St U)
  | .seed u => match s.main with
    | .seeding (v :: r) => if v = u ∧ s.urls.length < cap then some { s with main := .seeding r, urls := s.urls ++ [v] } else none
    | _ => none
  | .sent => if s.main = .seeding [] then some { s with main := .waiting } else none
  | .ask u => match s.urls with
    | v :: r => if v = u then some { s with urls := r, tasks := v :: s.tasks } else none
    | [] => none
  | .answer u r => if u ∈ s.tasks then some { s with tasks := s.tasks.erase u, outs := replies u r :: s.outs } else none
  | .die u => if u ∈ s.tasks then some { s with tasks := s.tasks.erase u } else none
  | .post => match s.outs with
    | (m :: o) :: suf => if s.msgs.length < cap then
        some { s with outs := if o = [] then suf else o :: suf, msgs := s.msgs ++ [m] } else none
    | _ => none
  | .recv => match s.msgs with
    | m :: r => if s.main = .waiting then some { s with main := .draining m, msgs := r } else none
    | [] => none
  | .skip u => match s.main, s.stack with
    | .draining _, v :: r => if v = u ∧ v ∈ s.visited then some { s with stack := r } else none
    | _, _ => none
  | .push u => match s.main, s.stack with
    | .draining _, v :: r => if v = u ∧ v ∉ s.visited ∧ s.urls.length < cap then
        some { s with stack := r, visited := ins v s.visited, count := s.count + 1, urls := s.urls ++ [v] } else none
    | _, _ => none
  | .drained => match s.main, s.stack with
    | .draining m, [] => some { s with main := .handling m }
    | .draining m, v :: _ => if v ∉ s.visited ∧ s.urls.length = cap then some { s with main := .handling m } else none
    | _, _ => none
  | .handle => match s.main with
    | .handling (.active u) => if s.count ≠ 0 then
        some { s with main := if s.count - 1 = 0 then .done else .waiting, active := ins u s.active,
                      visited := ins u s.visited, count := s.count - 1 } else none
    | .handling (.inactive u) => if s.count ≠ 0 then
        some { s with main := if s.count - 1 = 0 then .done else .waiting,
                      visited := ins u s.visited, count := s.count - 1 } else none
    | .handling (.peers ps) => some { s with main := .waiting, stack := if s.addPeers then ps ++ s.stack else s.stack }
    | _ => none
  | .timeout => if s.main = .waiting ∧ s.addPeers = true then some { s with addPeers := false, stack := [] } else none

theorem exec_sound {cap : Nat} {s s' : St U} {e : Ev U} (h : exec cap s e = some s') : Step cap s e s' := by
  cases e <;> simp only [exec] at h
  · split at h
    · split at h
      · rename_i h1 h2; cases h; obtain ⟨rfl, h2⟩ := h2; exact .seed h1 h2
      · cases h
    · cases h
  · split at h
    · cases h; exact .sent (by assumption)
    · cases h
  · split at h
    · split at h
      · rename_i h1 h2; subst h2; cases h; exact .ask h1
      · cases h
    · cases h
  · split at h
    · cases h; exact .answer (by assumption)
    · cases h
  · split at h
    · cases h; exact .die (by assumption)
    · cases h
  · split at h
    · split at h
      · rename_i h1 h2; cases h; exact .post (pre := []) h1 h2
      · cases h
    · cases h
  · split at h
    · split at h
      · rename_i h1 h2; cases h; exact .recv h2 h1
      · cases h
    · cases h
  · split at h
    · split at h
      · rename_i h1 h2 h3; cases h; obtain ⟨rfl, h3⟩ := h3; exact .skip h1 h2 h3
      · cases h
    · cases h
  · split at h
    · split at h
      · rename_i h1 h2 h3; cases h; obtain ⟨rfl, h3, h4⟩ := h3; exact .push h1 h2 h3 h4
      · cases h
    · cases h
  · split at h
    · rename_i h1 h2; cases h; exact .drained h1 (Or.inl h2)
    · split at h
      · rename_i h1 h2 h3; cases h; exact .drained h1 (Or.inr ⟨_, _, h2, h3.1, h3.2⟩)
      · cases h
    · cases h
  · split at h
    · split at h
      · rename_i h1 h2; cases h; exact .active h1 h2
      · cases h
    · split at h
      · rename_i h1 h2; cases h; exact .inactive h1 h2
      · cases h
    · rename_i h1; cases h; exact .peers h1 (List.Perm.refl _)
    · cases h
  · split at h
    · rename_i h1; cases h; exact .timeout h1.1 h1.2
    · cases h

def execAll (cap : Nat) (s : St U) : List (Ev U) → Option (St U)
  | [] => some s
  | e :: tr => (exec cap s e).bind fun s' => execAll cap s' tr

theorem execAll_sound {cap : Nat} {tr : List (Ev U)} : ∀ {s s' : St U}, execAll cap s tr = some s' → Run cap s tr s' := by
  induction tr with
  | nil => intro s s' h; cases h; exact .nil
  | cons e tr ih =>
    intro s s' h
    simp only [execAll, Option.bind_eq_some_iff] at h
    obtain ⟨s1, h1, h2⟩ := h
    exact .cons (exec_sound h1) (ih h2)

/-! ## Bounds -/

def wMsg (k : Nat) : Msg U → Nat
  | .peers ps => k * ps.length
  | _ => 0

def wMain (k : Nat) : Main U → Nat
  | .seeding l => 11 * l.length + 1
  | .draining m => 2 + wMsg k m
  | .handling m => 1 + wMsg k m
  | _ => 0

/-- How many steps can still follow without another push. -/
def pot (k : Nat) (s : St U) : Nat :=
  wMain k s.main + 10 * s.urls.length + 9 * s.tasks.length + (s.outs.flatten.map fun m => 4 + wMsg k m).sum +
    (s.msgs.map fun m => 3 + wMsg k m).sum + s.stack.length

def gain (k : Nat) : Ev U → Nat
  | .push _ => 10
  | .answer _ (some ps) => k * ps.length
  | .timeout => 1
  | _ => 0

theorem pot_step {cap k : Nat} {s s' : St U} {e : Ev U} (h : Step cap s e s') (hk : k = 1 ∨ s.addPeers = false) :
    pot k s' + 1 ≤ pot k s + gain k e := by
  cases h with
  | seed h1 h2 => simp [pot, h1, wMain, gain]; omega
  | sent h1 => simp [pot, h1, wMain, gain]; omega
  | ask h1 => simp [pot, h1, gain]; omega
  | answer h1 =>
    rename_i u r
    have h2 : (s.tasks.erase u).length + 1 = s.tasks.length := by
      have := List.length_pos_of_mem h1
      rw [List.length_erase_of_mem h1]; omega
    cases r with
    | none => simp [pot, replies, gain, wMsg]; omega
    | some ps => simp [pot, replies, gain, wMsg]; omega
  | die h1 =>
    rename_i u
    have h2 : (s.tasks.erase u).length + 1 = s.tasks.length := by
      have := List.length_pos_of_mem h1
      rw [List.length_erase_of_mem h1]; omega
    simp [pot, gain]; omega
  | post h1 h2 =>
    rename_i m o pre suf
    have : (if o = [] then suf else o :: suf).flatten = o ++ suf.flatten := by
      split
      · simp [*]
      · rfl
    simp only [pot, h1, List.flatten_append, this, List.flatten_cons, List.map_append, List.sum_append, List.map_cons, List.sum_cons,
      List.map_nil, List.sum_nil, gain, List.cons_append]
    omega
  | recv h1 h2 => simp [pot, h1, h2, wMain, gain]; omega
  | skip h1 h2 h3 => simp [pot, h2, gain]; omega
  | push h1 h2 h3 h4 => simp [pot, h2, gain]; omega
  | drained h1 h2 => simp [pot, h1, wMain, gain]; omega
  | active h1 h2 => by_cases hc : s.count - 1 = 0 <;> simp [pot, h1, wMain, gain, hc, wMsg] <;> omega
  | inactive h1 h2 => by_cases hc : s.count - 1 = 0 <;> simp [pot, h1, wMain, gain, hc, wMsg] <;> omega
  | underflow h1 h2 h3 => simp [pot, h1, wMain, gain]; omega
  | peers h1 h2 =>
    have := h2.length_eq
    rcases hk with rfl | hk
    · by_cases hc : s.addPeers = true <;> simp [pot, h1, wMain, gain, wMsg, hc] <;> omega
    · simp [pot, h1, wMain, gain, wMsg, hk]; omega
  | timeout h1 h2 => simp [pot, gain]

theorem pot_run {cap : Nat} {s s' : St U} {tr : List (Ev U)} (h : Run cap s tr s') :
    tr.length + pot 1 s' ≤ pot 1 s + (tr.map (gain 1)).sum := by
  induction h with
  | nil => simp
  | snoc _ hs ih =>
    have := pot_step hs (Or.inl rfl)
    simp only [List.length_append, List.length_cons, List.length_nil, List.map_append, List.map_cons, List.map_nil, List.sum_append,
      List.sum_cons, List.sum_nil]
    omega

theorem timeouts {cap : Nat} {seeds : List U} {s : St U} {tr : List (Ev U)} (h : Run cap (init seeds) tr s) :
    tr.count .timeout + (if s.addPeers then 1 else 0) = 1 := by
  induction h with
  | nil => simp [init]
  | snoc _ hs ih => cases hs <;> simp_all [List.count_append, List.count_cons, List.count_nil]

theorem gain_sum (K : Nat) : ∀ (tr : List (Ev U)), (∀ u ps, Ev.answer u (some ps) ∈ tr → ps.length ≤ K) →
    (tr.map (gain 1)).sum ≤ 10 * (pushes tr).length + K * (answered tr).length + tr.count .timeout
  | [], _ => by simp
  | e :: tr, h => by
    have ih := gain_sum K tr fun u ps hu => h u ps (List.mem_cons_of_mem _ hu)
    simp only [pushes, answered] at ih
    rcases e with _ | _ | _ | ⟨u, _ | ps⟩ | _ | _ | _ | _ | _ | _ | _ | _ <;>
      simp [gain, pushes, answered, List.count_cons, Nat.mul_add] <;> try omega
    have := h u ps (List.mem_cons_self ..)
    omega

theorem addPeers_false {cap : Nat} {s s' : St U} {tr : List (Ev U)} (h : Run cap s tr s') (h0 : s.addPeers = false) :
    s'.addPeers = false := by
  induction h with
  | nil => exact h0
  | snoc _ hs ih => cases hs <;> simp_all

theorem notSeeding_step {cap : Nat} {s s' : St U} {e : Ev U} (h : Step cap s e s') (h0 : ∀ l, s.main ≠ .seeding l) :
    ∀ l, s'.main ≠ .seeding l := by
  intro l
  cases h with
  | seed h1 h2 => exact absurd h1 (h0 _)
  | sent h1 => exact absurd h1 (h0 _)
  | active h1 h2 => by_cases hc : s.count - 1 = 0 <;> simp [hc]
  | inactive h1 h2 => by_cases hc : s.count - 1 = 0 <;> simp [hc]
  | ask h1 => exact h0 l
  | answer h1 => exact h0 l
  | die h1 => exact h0 l
  | post h1 h2 => exact h0 l
  | skip h1 => exact h0 l
  | push h1 => exact h0 l
  | timeout h1 => exact h0 l
  | recv h1 => simp
  | drained h1 => simp
  | underflow h1 => simp
  | peers h1 => simp

theorem notSeeding_run {cap : Nat} {s s' : St U} {tr : List (Ev U)} (h : Run cap s tr s') (h0 : ∀ l, s.main ≠ .seeding l) :
    ∀ l, s'.main ≠ .seeding l := by
  induction h with
  | nil => exact h0
  | snoc _ hs ih => exact notSeeding_step hs ih

theorem notSeeding_timeout {cap : Nat} {s s' : St U} {tr : List (Ev U)} (h : Run cap s tr s') (ht : Ev.timeout ∈ tr) :
    ∀ l, s'.main ≠ .seeding l := by
  induction h with
  | nil => cases ht
  | @snoc tr s1 e s' hr hs ih =>
    rcases List.mem_append.1 ht with ht | ht
    · exact notSeeding_step hs (ih ht)
    · have : e = .timeout := (List.mem_singleton.1 ht).symm
      subst this
      cases hs with
      | timeout h1 h2 => simp [h1]

/-- After the timeout. -/
theorem late {cap : Nat} (hcap : 1 ≤ cap) {seeds : List U} (hne : seeds ≠ []) {s s' : St U} {tr tr' : List (Ev U)}
    (h : Run cap (init seeds) tr s) (h0 : Ev.timeout ∈ tr) (h' : Run cap s tr' s') :
    pushes tr' = [] ∧ tr'.length + pot 0 s' ≤ pot 0 s ∧ asked tr' ++ s'.urls = s.urls := by
  have hadd : s.addPeers = false := by
    have := (content cap hcap seeds hne h).time2
    by_contra hc
    exact this.1 (by simpa using hc) h0
  have hseed := notSeeding_timeout h h0
  induction h' with
  | nil => exact ⟨rfl, by simp, by simp [asked]⟩
  | @snoc tr' s1 e s' hr hs ih =>
    obtain ⟨j1, j2, j3⟩ := ih
    have ha := addPeers_false hr hadd
    have hst := (content cap hcap seeds hne (h.append hr)).time1 ha
    have hns := notSeeding_run hr hseed
    have hp := pot_step hs (k := 0) (Or.inr ha)
    have key : gain 0 e = 0 → (tr' ++ [e]).length + pot 0 s' ≤ pot 0 s := by
      intro hg
      rw [List.length_append, List.length_singleton]
      omega
    have ep : (∀ u, e ≠ .push u) → pushes (tr' ++ [e]) = [] := by
      intro hne
      cases e <;> simp_all [pushes]
    have ea : (∀ u, e ≠ .ask u) → asked (tr' ++ [e]) = asked tr' := by
      intro hne
      cases e <;> simp_all [asked]
    cases hs with
    | seed h1 h2 => exact absurd h1 (hns _)
    | sent h1 => exact absurd h1 (hns _)
    | ask h1 =>
      rename_i u r
      refine ⟨ep (by simp), key rfl, ?_⟩
      rw [← j3, h1]
      simp [asked]
    | answer h1 =>
      rename_i u r
      refine ⟨ep (by simp), key (by cases r <;> simp [gain]), ?_⟩
      rw [ea (by simp)]; exact j3
    | die h1 => exact ⟨ep (by simp), key rfl, by rw [ea (by simp)]; exact j3⟩
    | post h1 h2 => exact ⟨ep (by simp), key rfl, by rw [ea (by simp)]; exact j3⟩
    | recv h1 h2 => exact ⟨ep (by simp), key rfl, by rw [ea (by simp)]; exact j3⟩
    | skip h1 h2 h3 => rw [h2] at hst; cases hst
    | push h1 h2 h3 h4 => rw [h2] at hst; cases hst
    | drained h1 h2 => exact ⟨ep (by simp), key rfl, by rw [ea (by simp)]; exact j3⟩
    | active h1 h2 => exact ⟨ep (by simp), key rfl, by rw [ea (by simp)]; exact j3⟩
    | inactive h1 h2 => exact ⟨ep (by simp), key rfl, by rw [ea (by simp)]; exact j3⟩
    | underflow h1 h2 h3 => exact ⟨ep (by simp), key rfl, by rw [ea (by simp)]; exact j3⟩
    | peers h1 h2 => exact ⟨ep (by simp), key rfl, by rw [ea (by simp)]; exact j3⟩
    | timeout h1 h2 => rw [ha] at h2; cases h2

theorem countP_split (l : List (Msg U)) : l.length = l.countP Msg.isFinal + l.countP Msg.isPeers := by
  induction l with
  | nil => rfl
  | cons m l ih => cases m <;> simp [List.countP_cons, Msg.isFinal, Msg.isPeers, ih] <;> omega

theorem active_le_final (l : List (Msg U)) : l.countP Msg.isActive ≤ l.countP Msg.isFinal := by
  refine List.countP_mono_left ?_
  intro m _ h
  cases m <;> simp_all [Msg.isActive, Msg.isFinal]

theorem pot_le {cap : Nat} (hcap : 1 ≤ cap) {seeds : List U} (hne : seeds ≠ []) {s : St U} {tr : List (Ev U)}
    (h : Run cap (init seeds) tr s) (h0 : Ev.timeout ∈ tr) : pot 0 s ≤ 10 * s.count := by
  have hadd : s.addPeers = false := by
    have := (content cap hcap seeds hne h).time2
    by_contra hc
    exact this.1 (by simpa using hc) h0
  have hst := (content cap hcap seeds hne h).time1 hadd
  have hns := notSeeding_timeout h h0
  have hc := count_inv cap hcap seeds hne h
  have hf := flow cap seeds h
  have e1 := hc.count
  have e2 := hc.fifo [] (pend s) rfl
  have e3 := countP_split (pend s)
  have e4 := active_le_final (pend s)
  have w0 : ∀ m : Msg U, wMsg 0 m = 0 := by intro m; cases m <;> simp [wMsg]
  have e5 : (s.outs.flatten.map fun m => 4 + wMsg 0 m).sum + 3 * (s.outs.countP fun o => o.length = 1 && o.all Msg.isActive) ≤
      8 * s.outs.length := by
    have := hf.outs
    generalize s.outs = os at this ⊢
    induction os with
    | nil => simp
    | cons o os ih =>
      have ih := ih fun o ho => this o (List.mem_cons_of_mem _ ho)
      rcases this o (List.mem_cons_self ..) with ⟨u, rfl⟩ | ⟨u, rfl⟩ | ⟨ps, u, rfl⟩ <;>
        simp [List.countP_cons, w0, Msg.isActive] at ih ⊢ <;> omega
  have e6 : wMain 0 s.main + (s.msgs.map fun m => 3 + wMsg 0 m).sum ≤ 3 * (pend s).length := by
    have : ∀ l : List (Msg U), (l.map fun m => 3 + wMsg 0 m).sum = 3 * l.length := by
      intro l; induction l with
      | nil => rfl
      | cons m l ih => simp [w0, ih]; omega
    rw [this]
    cases hm : s.main with
    | seeding l => exact absurd hm (hns l)
    | waiting => simp [pend, current, hm, wMain]
    | draining m => simp [pend, current, hm, wMain, w0]; omega
    | handling m => simp [pend, current, hm, wMain, w0]; omega
    | done => simp [pend, current, hm, wMain]
    | panicked => simp [pend, current, hm, wMain]
  unfold pot
  rw [hst, List.length_nil]
  omega

/-! ## Progress -/

theorem progress {cap : Nat} (hcap : 1 ≤ cap) {seeds : List U} (hne : seeds ≠ []) (net : U → Option (List U)) {s : St U}
    {tr : List (Ev U)} (h : Run cap (init seeds) tr s) (hd : died tr = []) (hm : s.main ≠ .done) :
    ∃ e s', Step cap s e s' ∧ e ≠ .timeout ∧ (∀ u, e ≠ .die u) ∧ ∀ u r, e = .answer u r → r = net u := by
  have hc := count_inv cap hcap seeds hne h
  have hf := flow cap seeds h
  cases hs : s.main with
  | seeding l =>
    cases l with
    | nil => exact ⟨_, _, .sent hs, by simp, by simp, by simp⟩
    | cons u l =>
      by_cases hl : s.urls.length < cap
      · exact ⟨_, _, .seed hs hl, by simp, by simp, by simp⟩
      · cases hu : s.urls with
        | nil => rw [hu] at hl; simp at hl; omega
        | cons v r => exact ⟨_, _, .ask hu, by simp, by simp, by simp⟩
  | waiting =>
    cases hmsg : s.msgs with
    | cons m r => exact ⟨_, _, .recv hs hmsg, by simp, by simp, by simp⟩
    | nil =>
      cases ho : s.outs with
      | cons o os =>
        have hl : s.msgs.length < cap := by rw [hmsg]; simp; omega
        rcases hf.outs o (by rw [ho]; simp) with ⟨u, rfl⟩ | ⟨u, rfl⟩ | ⟨ps, u, rfl⟩
        · exact ⟨_, _, .post (pre := []) ho hl, by simp, by simp, by simp⟩
        · exact ⟨_, _, .post (pre := []) ho hl, by simp, by simp, by simp⟩
        · exact ⟨_, _, .post (pre := []) ho hl, by simp, by simp, by simp⟩
      | nil =>
        cases ht : s.tasks with
        | cons u r =>
          refine ⟨_, _, .answer (u := u) (r := net u) (by rw [ht]; simp), by simp, by simp, ?_⟩
          intro v q e; cases e; rfl
        | nil =>
          cases hu : s.urls with
          | cons v r => exact ⟨_, _, .ask hu, by simp, by simp, by simp⟩
          | nil =>
            have := hc.count
            have h0 := hc.pos hm
            simp [rest, pend, current, hs, hmsg, ho, ht, hu, hd] at this
            exact absurd this h0
  | draining m =>
    cases hst : s.stack with
    | nil => exact ⟨_, _, .drained hs (Or.inl hst), by simp, by simp, by simp⟩
    | cons u r =>
      by_cases hv : u ∈ s.visited
      · exact ⟨_, _, .skip hs hst hv, by simp, by simp, by simp⟩
      · by_cases hl : s.urls.length < cap
        · exact ⟨_, _, .push hs hst hv hl, by simp, by simp, by simp⟩
        · have := hf.capU
          exact ⟨_, _, .drained hs (Or.inr ⟨u, r, hst, hv, by omega⟩), by simp, by simp, by simp⟩
  | handling m =>
    have h0 := hc.pos hm
    cases m with
    | active u => exact ⟨_, _, .active hs h0, by simp, by simp, by simp⟩
    | inactive u => exact ⟨_, _, .inactive hs h0, by simp, by simp, by simp⟩
    | peers ps => exact ⟨_, _, .peers hs (List.Perm.refl _), by simp, by simp, by simp⟩
  | done => exact absurd hs hm
  | panicked => exact absurd hs hc.np

/-! ## The end -/

structure AtEnd (seeds : List U) (tr : List (Ev U)) (s : St U) : Prop where
  held : held s = []
  stack : s.stack = []
  urls : s.urls = []
  died : died tr = []
  asked : ∀ u, u ∈ asked tr ↔ u ∈ seeds ∨ u ∈ pushes tr
  answered : ∀ u, u ∈ Spec.Discovery.asked tr ↔ u ∈ answered tr

theorem atEnd {cap : Nat} (hcap : 1 ≤ cap) {seeds : List U} (hne : seeds ≠ []) {s : St U} {tr : List (Ev U)}
    (h : Run cap (init seeds) tr s) (hm : s.main = .done) : AtEnd seeds tr s := by
  have hc := count_inv cap hcap seeds hne h
  have hf := flow cap seeds h
  obtain ⟨h1, h2⟩ := hc.over hm
  have e1 := hc.count
  have e2 := hc.fifo [] (pend s) rfl
  have e3 := countP_split (pend s)
  have e4 := active_le_final (pend s)
  have e5 : (s.outs.countP fun o => o.length = 1 && o.all Msg.isActive) ≤ s.outs.length := List.countP_le_length
  have u0 : s.urls = [] := List.length_eq_zero_iff.1 (by omega)
  have t0 : s.tasks = [] := List.length_eq_zero_iff.1 (by omega)
  have o0 : s.outs = [] := List.length_eq_zero_iff.1 (by omega)
  have d0 : died tr = [] := List.length_eq_zero_iff.1 (by omega)
  have p0 : pend s = [] := List.length_eq_zero_iff.1 (by omega)
  have r0 : rest s = [] := List.length_eq_zero_iff.1 (by omega)
  have hs := hf.sent
  rw [r0, List.append_nil] at hs
  have hq := hf.enq
  rw [hs, u0, List.append_nil] at hq
  have ht := hf.task
  rw [t0, d0, List.append_nil, List.nil_append] at ht
  exact ⟨by rw [Discovery.held, p0, o0]; rfl, h2, u0, d0, fun u => by rw [← hq.mem_iff, List.mem_append], fun u => ht.mem_iff⟩

theorem mem_answered {u : U} {tr : List (Ev U)} : u ∈ answered tr ↔ ∃ r, Ev.answer u r ∈ tr := by
  unfold answered
  rw [List.mem_filterMap]
  constructor
  · rintro ⟨e, he, h⟩
    cases e <;> simp at h
    subst h
    exact ⟨_, he⟩
  · rintro ⟨r, h⟩; exact ⟨_, h, rfl⟩

/-- Everything that is asked can be reached. -/
theorem reach_of_queued {cap : Nat} (hcap : 1 ≤ cap) {seeds : List U} (hne : seeds ≠ []) (net : U → Option (List U)) {s : St U}
    {tr : List (Ev U)} (h : Run cap (init seeds) tr s) (hn : Follows net tr) : ∀ u ∈ seeded tr ++ pushes tr, Reach net seeds u := by
  induction h with
  | nil => intro u hu; simp [seeded, pushes] at hu
  | @snoc tr s e s' hr hs ih =>
    have hn' : Follows net tr := fun u r hu => hn u r (List.mem_append_left _ hu)
    have ih := ih hn'
    intro u hu
    cases hs with
    | seed h1 h2 =>
      rename_i v r
      have hseed := (flow cap seeds hr).sent
      simp only [seeded, pushes, List.filterMap_append, List.filterMap_cons, List.filterMap_nil, List.append_nil, List.mem_append,
        List.mem_singleton] at hu
      rcases hu with (hu | rfl) | hu
      · exact ih u (List.mem_append_left _ hu)
      · refine .seed ?_
        rw [← hseed]
        exact List.mem_append_right _ (by simp [rest, h1])
      · exact ih u (List.mem_append_right _ hu)
    | push h1 h2 h3 h4 =>
      rename_i m v r
      simp only [seeded, pushes, List.filterMap_append, List.filterMap_cons, List.filterMap_nil, List.append_nil, List.mem_append,
        List.mem_singleton] at hu
      rcases hu with hu | hu | rfl
      · exact ih u (List.mem_append_left _ hu)
      · exact ih u (List.mem_append_right _ hu)
      · obtain ⟨w, ps, hw, hp⟩ := (content cap hcap seeds hne hr).peers1 u (Or.inr (Or.inl (by rw [h2]; simp)))
        have hf := flow cap seeds hr
        have ha : w ∈ asked tr := hf.task.mem_iff.2 (by simp [mem_answered]; exact Or.inr (Or.inl ⟨_, hw⟩))
        have hq := hf.enq.mem_iff.2 (List.mem_append_left _ ha)
        exact .peer (ih w hq) (hn' w _ hw).symm hp
    | sent h1 => exact ih u (by simpa [seeded, pushes] using hu)
    | ask h1 => exact ih u (by simpa [seeded, pushes] using hu)
    | answer h1 => exact ih u (by simpa [seeded, pushes] using hu)
    | die h1 => exact ih u (by simpa [seeded, pushes] using hu)
    | post h1 => exact ih u (by simpa [seeded, pushes] using hu)
    | recv h1 => exact ih u (by simpa [seeded, pushes] using hu)
    | skip h1 => exact ih u (by simpa [seeded, pushes] using hu)
    | drained h1 => exact ih u (by simpa [seeded, pushes] using hu)
    | active h1 => exact ih u (by simpa [seeded, pushes] using hu)
    | inactive h1 => exact ih u (by simpa [seeded, pushes] using hu)
    | underflow h1 => exact ih u (by simpa [seeded, pushes] using hu)
    | peers h1 => exact ih u (by simpa [seeded, pushes] using hu)
    | timeout h1 => exact ih u (by simpa [seeded, pushes] using hu)

end Verif.Discovery
