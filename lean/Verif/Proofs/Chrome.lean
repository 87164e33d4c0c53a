import Verif.Spec.Chrome
import Verif.Proofs.Discovery

set_option linter.unusedSimpArgs false
set_option linter.unusedVariables false

/-!
# Invariants of the scan for peers with Chrome
-/

namespace Verif.Chrome
open Verif.Spec.Chrome
open Verif.Discovery (ins mem_ins ins_nodup)

variable {U : Type}

def Msg.load : Msg U → Nat
  | .preflight => 0
  | .peers _ => 0
  | _ => 1

def costs (l : List (Msg U)) : Nat := (l.map Msg.cost).sum
def loads (l : List (Msg U)) : Nat := (l.map Msg.load).sum
def nAll (l : List (Req U)) : Nat := l.countP Req.isAll

def current (s : St U) : List (Msg U) := match s.main with | .draining m => [m] | .handling m => [m] | _ => []
def held (s : St U) : List (Msg U) := current s ++ s.msgs ++ s.outs.flatten

def Ev.isLost : Ev U → Bool
  | .die _ => true
  | .answer (.all _) .network => true
  | _ => false

def lost (tr : List (Ev U)) : Nat := tr.countP Ev.isLost

@[simp] theorem costs_nil : costs ([] : List (Msg U)) = 0 := rfl
@[simp] theorem costs_cons (m : Msg U) (l) : costs (m :: l) = m.cost + costs l := by simp [costs]
@[simp] theorem costs_append (k l : List (Msg U)) : costs (k ++ l) = costs k + costs l := by simp [costs]
@[simp] theorem loads_nil : loads ([] : List (Msg U)) = 0 := rfl
@[simp] theorem loads_cons (m : Msg U) (l) : loads (m :: l) = m.load + loads l := by simp [loads]
@[simp] theorem loads_append (k l : List (Msg U)) : loads (k ++ l) = loads k + loads l := by simp [loads]
@[simp] theorem nAll_nil : nAll ([] : List (Req U)) = 0 := rfl
@[simp] theorem nAll_info (u : U) (l) : nAll (.info u :: l) = nAll l := by simp [nAll, Req.isAll]
@[simp] theorem nAll_all (u : U) (l) : nAll (.all u :: l) = nAll l + 1 := by
  unfold nAll; rw [List.countP_cons_of_pos rfl]
@[simp] theorem nAll_append (k l : List (Req U)) : nAll (k ++ l) = nAll k + nAll l := by simp [nAll]
@[simp] theorem nAll_map (ps : List U) : nAll (ps.map .info) = 0 := by
  induction ps with
  | nil => rfl
  | cons p ps ih => rw [List.map_cons, nAll_info, ih]
@[simp] theorem lost_nil : lost ([] : List (Ev U)) = 0 := rfl
@[simp] theorem lost_snoc (tr : List (Ev U)) (e) : lost (tr ++ [e]) = lost tr + if e.isLost then 1 else 0 := by
  simp [lost, List.countP_append, List.countP_cons]

variable [DecidableEq U]

theorem nAll_erase {r : Req U} {l : List (Req U)} (h : r ∈ l) : nAll (l.erase r) + nAll [r] = nAll l := by
  unfold nAll
  rw [(List.perm_cons_erase h).countP_eq Req.isAll, ← List.singleton_append (l := l.erase r), List.countP_append]
  omega

theorem length_erase' {α : Type} [DecidableEq α] {r : α} {l : List α} (h : r ∈ l) : (l.erase r).length + 1 = l.length := by
  rw [List.length_erase_of_mem h]
  have := List.length_pos_of_mem h
  omega

structure Nums (tr : List (Ev U)) (s : St U) : Prop where
  np : s.main ≠ .panicked
  count : s.count = ((s.reqs.length + s.tasks.length + loads (held s) + nAll s.pending + nAll s.late + lost tr : Nat) : Int)
  chrome : s.chrome = 2 * s.reqs.length + 2 * s.tasks.length + costs (held s) + 2 * lost tr
  bound : s.chrome ≤ max 2 s.limit
  idle : s.main = .idle → s.count = 0 ∧ held s = []
  done : s.main = .done → s.count = 0 ∧ s.pending = []

theorem costs_replies (r : Req U) (a : Ans U) (tr : List (Ev U)) :
    costs (replies r a) + 2 * lost [Ev.answer r a] = 2 ∧ loads (replies r a) + lost [Ev.answer r a] = 1 := by
  cases r <;> cases a <;> simp [replies, lost, Ev.isLost, Msg.cost, Msg.load]

theorem nums {cap : Nat} {seeds : List U} {tr : List (Ev U)} {s : St U} (h : Run cap (init seeds) tr s) : Nums tr s := by
  induction h with
  | nil => constructor <;> simp [init, held, current]
  | @snoc tr s e s' _ hs ih =>
    obtain ⟨np, hcount, hchrome, bound, idle, done⟩ := ih
    cases hs with
    | call h1 h2 =>
      obtain ⟨i1, i2⟩ := idle h1
      have hp := nAll_erase h2.1
      rw [i1, i2] at hcount
      rw [i2] at hchrome
      have hz : nAll s.pending = 0 := by simp at hcount; omega
      have hr : s.reqs.length = 0 ∧ s.tasks.length = 0 ∧ nAll s.late = 0 ∧ lost tr = 0 := by simp at hcount; omega
      obtain ⟨hr, ht, hl, ho⟩ := hr
      have hh : s.msgs ++ s.outs.flatten = [] := by simpa [held, current, h1] using i2
      constructor
      · simp
      · simp only [held, current, List.nil_append, hh]; simp [Ev.isLost, hr, ht, ho]; omega
      · simp only [held, current, List.nil_append, hh]; simp [Ev.isLost, hr, ht, ho]
      · exact Nat.le_max_left ..
      · simp
      · simp
    | ask h1 =>
      constructor
      · exact np
      · simp only [held, current] at hcount ⊢; rw [h1] at hcount; simp [Ev.isLost] at hcount ⊢; omega
      · simp only [held, current] at hchrome ⊢; rw [h1] at hchrome; simp [Ev.isLost] at hchrome ⊢; omega
      · exact bound
      · exact idle
      · exact done
    | @answer r a h1 =>
      have hc := costs_replies r a tr
      have hl := length_erase' h1
      have hi : s.main ≠ .idle := by
        intro hm
        obtain ⟨i1, i2⟩ := idle hm
        rw [i1] at hcount
        omega
      have e1 : lost (tr ++ [Ev.answer r a]) = lost tr + lost [Ev.answer r a] := by simp [lost]
      constructor
      · exact np
      · rw [e1]
        simp only [held, current, List.flatten_cons, loads_append] at hcount ⊢
        omega
      · rw [e1]
        simp only [held, current, List.flatten_cons, costs_append] at hchrome ⊢
        omega
      · exact bound
      · exact fun hm => absurd hm hi
      · exact done
    | @die r h1 =>
      have hl := length_erase' h1
      constructor
      · exact np
      · simp only [held, current, lost_snoc, Ev.isLost] at hcount ⊢; simp at hcount ⊢; omega
      · simp only [held, current, lost_snoc, Ev.isLost] at hchrome ⊢; simp at hchrome ⊢; omega
      · exact bound
      · exact idle
      · exact done
    | @post m o pre suf h1 =>
      constructor
      · exact np
      · simp only [held, current] at hcount ⊢; rw [h1] at hcount; simp [Ev.isLost] at hcount ⊢; omega
      · simp only [held, current] at hchrome ⊢; rw [h1] at hchrome; simp [Ev.isLost] at hchrome ⊢; omega
      · exact bound
      · intro hm
        have := (idle hm).2
        simp [held, h1] at this
      · exact done
    | recv h1 h2 =>
      constructor
      · simp
      · simp only [held, current] at hcount ⊢; rw [h1, h2] at hcount; simp [Ev.isLost] at hcount ⊢; omega
      · simp only [held, current] at hchrome ⊢; rw [h1, h2] at hchrome; simp [Ev.isLost] at hchrome ⊢; omega
      · exact bound
      · simp
      · simp
    | @skip m u h1 h2 h3 =>
      have hp := nAll_erase h2.1
      rw [nAll_info, nAll_nil] at hp
      constructor
      · exact np
      · simp only [held, current, lost_snoc, Ev.isLost] at hcount ⊢; simp at hcount ⊢; omega
      · simp only [held, current, lost_snoc, Ev.isLost] at hchrome ⊢; simp at hchrome ⊢; omega
      · exact bound
      · intro hm; rw [show s.main = _ from hm] at h1; cases h1
      · intro hm; rw [show s.main = _ from hm] at h1; cases h1
    | @push m r h1 h2 h3 h4 h5 =>
      have hp := nAll_erase h2.1
      constructor
      · exact np
      · cases r with
        | info u =>
          rw [nAll_info, nAll_nil] at hp
          simp only [held, current, lost_snoc, Ev.isLost, Req.isAll, List.length_append] at hcount ⊢; simp at hcount ⊢; omega
        | all u =>
          rw [nAll_all, nAll_nil] at hp
          simp only [held, current, lost_snoc, Ev.isLost, Req.isAll, List.length_append] at hcount ⊢; simp at hcount ⊢; omega
      · simp only [held, current, lost_snoc, Ev.isLost, List.length_append] at hchrome ⊢; simp at hchrome ⊢; omega
      · have : s.limit > s.chrome ∧ s.limit - s.chrome ≥ 2 := h4
        show s.chrome + 2 ≤ max 2 s.limit
        omega
      · intro hm; rw [show s.main = _ from hm] at h1; cases h1
      · intro hm; rw [show s.main = _ from hm] at h1; cases h1
    | drained h1 h2 =>
      constructor
      · simp
      · simp only [held, current] at hcount ⊢; rw [h1] at hcount; simp [Ev.isLost] at hcount ⊢; omega
      · simp only [held, current] at hchrome ⊢; rw [h1] at hchrome; simp [Ev.isLost] at hchrome ⊢; omega
      · exact bound
      · simp
      · simp
    | @handle m h1 h2 =>
      have c1 : ∀ t : St U, (leave t).count = t.count := fun t => rfl
      have c2 : ∀ t : St U, (leave t).main = if t.count = 0 ∧ t.pending = [] then .done else .waiting := fun t => rfl
      have c3 : ∀ t : St U, held (leave t) = t.msgs ++ t.outs.flatten := by
        intro t
        unfold held current
        rw [c2]
        by_cases hc : t.count = 0 ∧ t.pending = []
        · rw [if_pos hc]; rfl
        · rw [if_neg hc]; rfl
      have hh : held s = m :: (s.msgs ++ s.outs.flatten) := by simp [held, current, h1]
      rw [hh] at hcount hchrome
      constructor
      · rw [c2]; split <;> simp
      · rw [c3]
        cases m <;> simp only [leave, effect, loads_cons, loads_append, Msg.load, lost_snoc, Ev.isLost, nAll_all] at hcount ⊢ <;>
          (try split) <;> (try simp only [nAll_append, nAll_map]) <;> simp at hcount ⊢ <;> omega
      · rw [c3]
        cases m <;> simp only [leave, effect, costs_cons, costs_append, Msg.cost, lost_snoc, Ev.isLost] at hchrome ⊢ <;>
          (try split) <;> simp at hchrome ⊢ <;> omega
      · cases m <;> simp only [leave, effect] <;> (try split) <;> (first | (show s.chrome - _ ≤ max 2 s.limit); omega)
      · intro hm; rw [c2] at hm; split at hm <;> cases hm
      · intro hm
        rw [c2] at hm
        split at hm
        · assumption
        · cases hm
    | @underflow m h1 h2 =>
      exfalso
      have hh : held s = m :: (s.msgs ++ s.outs.flatten) := by simp [held, current, h1]
      rw [hh, costs_cons] at hchrome
      omega
    | timeout h1 h2 =>
      constructor
      · exact np
      · simp only [held, current, lost_snoc, Ev.isLost, nAll_append] at hcount ⊢; simp at hcount ⊢; omega
      · simp only [held, current, lost_snoc, Ev.isLost] at hchrome ⊢; simp at hchrome ⊢; omega
      · exact bound
      · intro hm; rw [show s.main = _ from hm] at h1; cases h1
      · intro hm; rw [show s.main = _ from hm] at h1; cases h1
    | finish h1 =>
      obtain ⟨d1, d2⟩ := done h1
      rw [d1] at hcount
      have z1 : s.reqs.length = 0 ∧ s.tasks.length = 0 ∧ nAll s.late = 0 ∧ lost tr = 0 := by omega
      obtain ⟨z1, z2, z3, z4⟩ := z1
      constructor
      · simp
      · simp [held, current, Ev.isLost, z1, z2, z3, z4]
      · simp [held, current, Ev.isLost, z1, z2, z3, z4]
      · exact Nat.zero_le _
      · intro _; exact ⟨rfl, by simp [held, current]⟩
      · simp

/-! ## The two messages of a node with its peers -/

def Msg.isPeers : Msg U → Bool
  | .peers _ => true
  | _ => false

def Msg.isActive : Msg U → Bool
  | .active _ => true
  | _ => false

def isTail : List (Msg U) → Bool
  | [.active _] => true
  | _ => false

def queue (s : St U) : List (Msg U) := current s ++ s.msgs

theorem held_eq (s : St U) : held s = queue s ++ s.outs.flatten := rfl

structure Pairs (s : St U) : Prop where
  shape : ∀ o ∈ s.outs, o = [] ∨ (∃ ps u, o = [.peers ps, .active u]) ∨ (∃ m, o = [m] ∧ m.isPeers = false) ∨
    ∃ m, o = [m, .preflight] ∧ m.isPeers = false ∧ m.isActive = false
  pair : ∀ suf, suf <:+ queue s → suf.countP Msg.isPeers ≤ suf.countP Msg.isActive + s.outs.countP isTail

theorem queue_leave (t : St U) : queue (leave t) = t.msgs := by
  unfold queue current leave
  by_cases hc : t.count = 0 ∧ t.pending = []
  · simp only [if_pos hc]; rfl
  · simp only [if_neg hc]; rfl

theorem effect_msgs (t : St U) (m : Msg U) : (effect t m).msgs = t.msgs ∧ (effect t m).outs = t.outs ∧ (effect t m).reqs = t.reqs ∧
    (effect t m).tasks = t.tasks ∧ (effect t m).seeds = t.seeds ∧ (effect t m).addPeers = t.addPeers ∧ (effect t m).limit = t.limit ∧
    (effect t m).main = t.main ∧ (effect t m).chrome = t.chrome := by
  cases m <;> simp only [effect] <;> (try split) <;> simp

theorem pairs {cap : Nat} {seeds : List U} {tr : List (Ev U)} {s : St U} (h : Run cap (init seeds) tr s) : Pairs s := by
  induction h with
  | nil => exact ⟨by simp [init], by simp [init, queue, current]⟩
  | @snoc tr s e s' _ hs ih =>
    obtain ⟨shape, pair⟩ := ih
    cases hs with
    | call h1 h2 =>
      refine ⟨shape, ?_⟩
      have : queue s = s.msgs := by simp [queue, current, h1]
      intro suf hsuf
      exact pair suf (by rw [this]; exact hsuf)
    | ask h1 => exact ⟨shape, pair⟩
    | @answer r a h1 =>
      constructor
      · intro o ho
        rcases List.mem_cons.1 ho with rfl | ho
        · cases r <;> cases a <;> simp [replies, Msg.isPeers, Msg.isActive]
        · exact shape o ho
      · intro suf hsuf
        have h2 := pair suf hsuf
        show _ ≤ _ + (replies r a :: s.outs).countP isTail
        rw [List.countP_cons]
        omega
    | die h1 => exact ⟨shape, pair⟩
    | @post m o pre post h1 =>
      have hm := shape (m :: o) (by rw [h1]; simp)
      constructor
      · intro o' ho
        rcases List.mem_append.1 ho with ho | ho
        · exact shape o' (by rw [h1]; simp [ho])
        · rcases List.mem_cons.1 ho with rfl | ho
          · rcases hm with hm | ⟨ps, u, hm⟩ | ⟨m', hm, _⟩ | ⟨m', hm, _⟩ <;> cases hm <;> simp [Msg.isPeers]
          · exact shape o' (by rw [h1]; simp [ho])
      · intro suf hsuf
        have hq : queue { s with outs := pre ++ o :: post, msgs := s.msgs ++ [m] } = queue s ++ [m] := by
          simp [queue, current]
        rw [hq, List.suffix_concat_iff] at hsuf
        show _ ≤ _ + (pre ++ o :: post).countP isTail
        have e1 : s.outs.countP isTail = pre.countP isTail + ((if isTail (m :: o) then 1 else 0) + post.countP isTail) := by
          rw [h1, List.countP_append, List.countP_cons]; omega
        rw [List.countP_append, List.countP_cons]
        rcases hsuf with rfl | ⟨t, rfl, ht⟩
        · simp
        · have h2 := pair t ht
          rw [e1] at h2
          rw [List.countP_append, List.countP_append, List.countP_cons, List.countP_cons]
          rcases hm with hm | ⟨ps, u, hm⟩ | ⟨m', hm, hm2⟩ | ⟨m', hm, hm2, hm3⟩
          · cases hm
          · cases hm
            simp [Msg.isPeers, Msg.isActive, isTail] at h2 ⊢
            omega
          · cases hm
            cases m <;> simp [Msg.isPeers, Msg.isActive, isTail] at h2 hm2 ⊢ <;> omega
          · cases hm
            cases m <;> simp [Msg.isPeers, Msg.isActive, isTail] at h2 hm2 hm3 ⊢ <;> omega
    | @recv m rest h1 h2 =>
      refine ⟨shape, ?_⟩
      have : queue s = m :: rest := by simp [queue, current, h1, h2]
      intro suf hsuf
      exact pair suf (by rw [this]; exact hsuf)
    | skip h1 h2 h3 => exact ⟨shape, pair⟩
    | push h1 h2 h3 h4 h5 => exact ⟨shape, pair⟩
    | @drained m h1 h2 =>
      refine ⟨shape, ?_⟩
      have : queue s = m :: s.msgs := by simp [queue, current, h1]
      intro suf hsuf
      exact pair suf (by rw [this]; exact hsuf)
    | @handle m h1 h2 =>
      have he := effect_msgs { s with chrome := s.chrome - m.cost } m
      refine ⟨?_, ?_⟩
      · intro o ho; exact shape o (by rw [show s.outs = _ from he.2.1.symm]; exact ho)
      · intro suf hsuf
        rw [queue_leave, he.1] at hsuf
        have : queue s = m :: s.msgs := by simp [queue, current, h1]
        show _ ≤ _ + (effect { s with chrome := s.chrome - m.cost } m).outs.countP isTail
        rw [he.2.1]
        exact pair suf (by rw [this]; exact hsuf.trans (List.suffix_cons ..))
    | @underflow m h1 h2 =>
      refine ⟨shape, ?_⟩
      have : queue s = m :: s.msgs := by simp [queue, current, h1]
      intro suf hsuf
      exact pair suf (by rw [this]; exact List.IsSuffix.trans hsuf (List.suffix_cons ..))
    | timeout h1 h2 => exact ⟨shape, pair⟩
    | finish h1 => exact ⟨by simp, by simp [queue, current]⟩

theorem loads_of_active {l : List (Msg U)} {u : U} (h : Msg.active u ∈ l) : 1 ≤ loads l := by
  induction l with
  | nil => cases h
  | cons m l ih =>
    rcases List.mem_cons.1 h with rfl | h
    · simp [Msg.load]
    · have := ih h
      rw [loads_cons]; omega

/-- If a list of peers is on its way, so is, behind it, the message that the node is active. -/
theorem Pairs.next {s : St U} (hp : Pairs s) {ps : List U} (h : Msg.peers ps ∈ held s) : 1 ≤ loads (s.msgs ++ s.outs.flatten) := by
  rw [held_eq] at h
  rcases List.mem_append.1 h with h | h
  · obtain ⟨a, b, hab⟩ := List.append_of_mem h
    have h1 := hp.pair (.peers ps :: b) ⟨a, hab.symm⟩
    rw [List.countP_cons, List.countP_cons] at h1
    simp only [Msg.isPeers, Msg.isActive, if_true, Bool.false_eq_true, if_false] at h1
    have hb : ∀ m ∈ b, m ∈ s.msgs := by
      intro m hm
      unfold queue current at hab
      split at hab
      · cases a with
        | nil => cases hab; exact hm
        | cons x a =>
          have : s.msgs = a ++ Msg.peers ps :: b := (List.cons.inj hab).2
          rw [this]; simp [hm]
      · cases a with
        | nil => cases hab; exact hm
        | cons x a =>
          have : s.msgs = a ++ Msg.peers ps :: b := (List.cons.inj hab).2
          rw [this]; simp [hm]
      · simp at hab; rw [hab]; simp [hm]
    have h2 : 0 < b.countP Msg.isActive ∨ 0 < s.outs.countP isTail := by omega
    rcases h2 with h2 | h2
    · obtain ⟨m, hm, ha⟩ := List.countP_pos_iff.1 h2
      cases m <;> cases ha
      exact loads_of_active (List.mem_append_left _ (hb _ hm))
    · obtain ⟨o, ho, ha⟩ := List.countP_pos_iff.1 h2
      unfold isTail at ha
      split at ha
      · rename_i u
        exact loads_of_active (u := u) (List.mem_append_right _ (List.mem_flatten.2 ⟨_, ho, by simp⟩))
      · cases ha
  · obtain ⟨o, ho, hm⟩ := List.mem_flatten.1 h
    rcases hp.shape o ho with rfl | ⟨ps', u, rfl⟩ | ⟨m, rfl, h2⟩ | ⟨m, rfl, h2, _⟩
    · cases hm
    · exact loads_of_active (u := u) (List.mem_append_right _ (List.mem_flatten.2 ⟨_, ho, by simp⟩))
    · simp at hm; subst hm; cases h2
    · simp at hm; subst hm; cases h2

theorem loads_zero {l : List (Msg U)} (h : loads l = 0) {m : Msg U} (hm : m ∈ l) : m.load = 0 := by
  induction l with
  | nil => cases hm
  | cons x l ih =>
    rw [loads_cons] at h
    rcases List.mem_cons.1 hm with rfl | hm
    · omega
    · exact ih (by omega) hm

theorem nAll_zero {l : List (Req U)} (h : nAll l = 0) {u : U} : Req.all u ∉ l := by
  intro hm
  have := List.countP_eq_zero.1 h _ hm
  simp [Req.isAll] at this

/-- What is left at the end of a call: simulated preflights only. -/
theorem atDone {cap : Nat} {seeds : List U} {tr : List (Ev U)} {s : St U} (h : Run cap (init seeds) tr s) (hd : s.main = .done) :
    s.reqs = [] ∧ s.tasks = [] ∧ s.pending = [] ∧ lost tr = 0 ∧ (∀ u, Req.all u ∉ s.late) ∧ ∀ m ∈ held s, m = .preflight := by
  have hn := nums h
  have hp := pairs h
  obtain ⟨d1, d2⟩ := hn.done hd
  have hc := hn.count
  rw [d1] at hc
  have z : s.reqs.length = 0 ∧ s.tasks.length = 0 ∧ nAll s.late = 0 ∧ lost tr = 0 ∧ loads (held s) = 0 := by omega
  obtain ⟨z1, z2, z3, z4, z5⟩ := z
  refine ⟨List.eq_nil_of_length_eq_zero z1, List.eq_nil_of_length_eq_zero z2, d2, z4, fun u => nAll_zero z3, ?_⟩
  intro m hm
  have hz := loads_zero z5 hm
  cases m <;> simp [Msg.load] at hz ⊢
  have := hp.next hm
  have e : held s = s.msgs ++ s.outs.flatten := by simp [held, current, hd]
  rw [e] at z5
  omega

theorem atIdle {cap : Nat} {seeds : List U} {tr : List (Ev U)} {s : St U} (h : Run cap (init seeds) tr s) (hd : s.main = .idle) :
    s.reqs = [] ∧ s.tasks = [] ∧ lost tr = 0 ∧ (∀ u, Req.all u ∉ s.pending) ∧ (∀ u, Req.all u ∉ s.late) ∧ held s = [] := by
  have hn := nums h
  obtain ⟨d1, d2⟩ := hn.idle hd
  have hc := hn.count
  rw [d1] at hc
  have z : s.reqs.length = 0 ∧ s.tasks.length = 0 ∧ nAll s.pending = 0 ∧ nAll s.late = 0 ∧ lost tr = 0 := by omega
  obtain ⟨z1, z2, z3, z4, z5⟩ := z
  exact ⟨List.eq_nil_of_length_eq_zero z1, List.eq_nil_of_length_eq_zero z2, z5, fun u => nAll_zero z3, fun u => nAll_zero z4, d2⟩

end Verif.Chrome
