import Verif.Proofs.ChromeRun

set_option linter.unusedSimpArgs false
set_option linter.unusedVariables false

/-!
# How often nodes are asked, how many requests are open, and how a scan with Chrome ends
-/

namespace Verif.Chrome
open Verif.Spec.Chrome
open Verif.Discovery (ins mem_ins ins_nodup)

variable {U : Type}

theorem filter_snoc {α : Type} (p : α → Bool) (l : List α) (x : α) :
    ((l ++ [x]).filter p).length = (l.filter p).length + if p x then 1 else 0 := by
  rw [List.filter_append, List.length_append]
  cases h : p x <;> simp [h]

def isEnd : Ev U → Bool
  | .answer _ _ => true
  | .die _ => true
  | _ => false

theorem outstanding_eq (tr : List (Ev U)) : outstanding tr = (asked tr).length - (tr.filter isEnd).length := by
  unfold outstanding
  congr 2

def enq (tr : List (Ev U)) : List (Req U) := tr.filterMap fun e => match e with | .call _ r => some r | .push r => some r | _ => none
def pushes (tr : List (Ev U)) : List (Req U) := tr.filterMap fun e => match e with | .push r => some r | _ => none

theorem enq_snoc (tr : List (Ev U)) (e : Ev U) :
    enq (tr ++ [e]) = enq tr ++ (match e with | .call _ r => [r] | .push r => [r] | _ => []) := by
  unfold enq; rw [List.filterMap_append]; cases e <;> rfl

theorem pushes_snoc (tr : List (Ev U)) (e : Ev U) :
    pushes (tr ++ [e]) = pushes tr ++ (match e with | .push r => [r] | _ => []) := by
  unfold pushes; rw [List.filterMap_append]; cases e <;> rfl

theorem calls_snoc (tr : List (Ev U)) (e : Ev U) :
    calls (tr ++ [e]) = calls tr ++ (match e with | .call _ r => [r] | _ => []) := by
  unfold calls; rw [List.filterMap_append]; cases e <;> rfl

variable [DecidableEq U]

structure Flow (tr : List (Ev U)) (s : St U) : Prop where
  len : (asked tr).length = s.tasks.length + (tr.filter isEnd).length
  enq : ∀ r, (Chrome.enq tr).count r = (asked tr).count r + s.reqs.count r
  split : ∀ r, (Chrome.enq tr).count r = (calls tr).count r + (pushes tr).count r
  once : ∀ u, (pushes tr).count (.info u) ≤ 1
  vis : ∀ u, Req.info u ∈ pushes tr → u ∈ s.visited
  callInfo : ∀ u, Req.all u ∉ calls tr

theorem flow {cap : Nat} {seeds : List U} {tr : List (Ev U)} {s : St U} (h : Run cap (init seeds) tr s) : Flow tr s := by
  induction h with
  | nil => constructor <;> simp [init, asked, Chrome.enq, calls, pushes]
  | @snoc tr s e s' h hs ih =>
    obtain ⟨len, enq, split, once, vis, callInfo⟩ := ih
    have hv := fun u => visited_old hs (u := u)
    constructor
    · rw [asked_snoc, filter_snoc]
      cases hs with
      | ask h1 => simp [isEnd]; omega
      | answer h1 => have := length_erase' h1; simp [isEnd]; omega
      | die h1 => have := length_erase' h1; simp [isEnd]; omega
      | @handle m h1 h2 =>
        have := (effect_msgs { s with chrome := s.chrome - m.cost } m).2.2.2.1
        simp only [leave, this, isEnd]; simp; omega
      | _ => simp [isEnd]; omega
    · intro r
      have := enq r
      rw [asked_snoc, enq_snoc, List.count_append, List.count_append]
      cases hs with
      | call h1 h2 => simp only [List.count_append]; simp; omega
      | ask h1 => rw [h1] at this; simp [List.count_cons] at this ⊢; omega
      | push h1 h2 h3 h4 h5 => simp only [List.count_append]; simp; omega
      | @handle m h1 h2 =>
        have he := (effect_msgs { s with chrome := s.chrome - m.cost } m).2.2.1
        simp only [leave, he]; simp; omega
      | _ => simp; omega
    · intro r
      have := split r
      rw [enq_snoc, calls_snoc, pushes_snoc, List.count_append, List.count_append, List.count_append]
      cases e <;> simp <;> omega
    · intro u
      have := once u
      rw [pushes_snoc, List.count_append]
      cases hs with
      | @push m r h1 h2 h3 h4 h5 =>
        by_cases hr : r = .info u
        · subst hr
          have : Req.info u ∉ pushes tr := by
            intro hm
            rcases h3 with h3 | h3
            · cases h3
            · exact h3 (vis u hm)
          rw [List.count_eq_zero_of_not_mem this]
          simp
        · rw [List.count_singleton]
          simp [hr]; omega
      | _ => simp; omega
    · intro u hu
      rw [pushes_snoc] at hu
      rcases List.mem_append.1 hu with hu | hu
      · exact hv u (vis u hu)
      · cases hs with
        | @push m r h1 h2 h3 h4 h5 =>
          simp at hu
          subst hu
          exact mem_ins.2 (Or.inl rfl)
        | _ => simp at hu
    · intro u hu
      rw [calls_snoc] at hu
      rcases List.mem_append.1 hu with hu | hu
      · exact callInfo u hu
      · cases hs with
        | @call n r h1 h2 =>
          simp at hu
          subst hu
          exact (atIdle h h1).2.2.2.1 u h2.1
        | _ => simp at hu

theorem outstanding_tasks {cap : Nat} {seeds : List U} {tr : List (Ev U)} {s : St U} (h : Run cap (init seeds) tr s) :
    outstanding tr = s.tasks.length := by
  rw [outstanding_eq, (flow h).len]; omega

/-! ## Open requests -/

def isAbort : Ev U → Bool
  | .answer _ .abort => true
  | _ => false

def isPre : Ev U → Bool
  | .post .preflight => true
  | _ => false

theorem preflights_eq (tr : List (Ev U)) : preflights tr = (tr.filter isAbort).length - (tr.filter isPre).length := by
  unfold preflights
  congr 2 <;> · congr 2

def nPre (l : List (Msg U)) : Nat := l.countP (fun m => match m with | .preflight => true | _ => false)

theorem nPre_append (k l : List (Msg U)) : nPre (k ++ l) = nPre k + nPre l := by simp [nPre]

theorem nPre_costs (l : List (Msg U)) : nPre l ≤ costs l := by
  induction l with
  | nil => simp [nPre]
  | cons m l ih =>
    rw [← List.singleton_append, nPre_append, costs_append]
    have : nPre [m] ≤ costs [m] := by cases m <;> simp [nPre, Msg.cost]
    omega

theorem since_call {cap : Nat} {s₀ : St U} {tr : List (Ev U)} {s : St U} (h : Run cap s₀ tr s) (h0 : ∀ m ∈ held s₀, False)
    (hh : ∀ tr s, Run cap s₀ tr s → s.main = .idle → held s = []) (tr₁ : List (Ev U)) (n : Nat)
    (r : Req U) (tr₂ : List (Ev U)) (he : tr = tr₁ ++ .call n r :: tr₂) (hc : ∀ n r, Ev.call n r ∉ tr₂) (hf : Ev.finish ∉ tr₂) :
    s.limit = n ∧ s.main ≠ .idle ∧ ((tr₂.filter isAbort).length : Int) - (tr₂.filter isPre).length = nPre s.outs.flatten := by
  induction h generalizing tr₂ with
  | nil => simp at he
  | @snoc tr s e s' h hs ih =>
    rcases List.eq_nil_or_concat tr₂ with rfl | ⟨tr₂', e', rfl⟩
    · have : tr ++ [e] = tr₁ ++ [.call n r] := he
      obtain ⟨rfl, h2⟩ := List.append_inj' this rfl
      cases h2
      cases hs with
      | call h1 h2 =>
        refine ⟨rfl, by simp, ?_⟩
        have : s.outs.flatten = [] := by
          have := hh _ _ h h1
          unfold held at this
          exact (List.append_eq_nil_iff.1 this).2
        simp only [this]
        simp [nPre]
    · rw [List.concat_eq_append] at he hc hf ⊢
      have : tr ++ [e] = (tr₁ ++ .call n r :: tr₂') ++ [e'] := by rw [he]; simp
      obtain ⟨h1, h2⟩ := List.append_inj' this rfl
      cases h2
      obtain ⟨i1, i2, i3⟩ := ih tr₂' h1 (fun n r hm => hc n r (List.mem_append_left _ hm)) (fun hm => hf (List.mem_append_left _ hm))
      rw [filter_snoc, filter_snoc]
      cases hs with
      | call h1 h2 => exact absurd h1 i2
      | @answer r a h1 =>
        refine ⟨i1, i2, ?_⟩
        rw [List.flatten_cons, nPre_append]
        have : nPre (replies r a) = if isAbort (Ev.answer r a) then 1 else 0 := by cases r <;> cases a <;> rfl
        rw [this]
        cases a <;> simp [isAbort, isPre] <;> omega
      | @post m o pre suf h1 =>
        refine ⟨i1, i2, ?_⟩
        rw [h1] at i3
        simp only [List.flatten_append, List.flatten_cons, nPre_append] at i3 ⊢
        rw [← List.singleton_append, nPre_append] at i3
        have : nPre [m] = if isPre (Ev.post m) then 1 else 0 := by cases m <;> rfl
        rw [this] at i3
        cases m <;> simp [isAbort, isPre] at i3 ⊢ <;> omega
      | @handle m h1 h2 =>
        have hm := effect_msgs { s with chrome := s.chrome - m.cost } m
        refine ⟨?_, ?_, ?_⟩
        · show (effect _ m).limit = n; rw [hm.2.2.2.2.2.2.1]; exact i1
        · unfold leave; simp only []; split <;> simp
        · show _ = (nPre (effect _ m).outs.flatten : Int)
          rw [hm.2.1]; simp [isAbort, isPre]; exact i3
      | finish h1 => exact absurd (by simp) hf
      | _ => exact ⟨i1, by simp [i2], by simp [isAbort, isPre]; exact i3⟩

/-! ## Stuck scans -/

theorem costs_le (l : List (Msg U)) : loads l ≤ costs l := by
  induction l with
  | nil => simp
  | cons m l ih => rw [loads_cons, costs_cons]; cases m <;> simp [Msg.load, Msg.cost] <;> omega

theorem exists_top {l : List (Req U)} (h : l ≠ []) : ∃ r, Top r l := by
  by_cases ha : ∃ r ∈ l, r.isAll = true
  · obtain ⟨r, h1, h2⟩ := ha; exact ⟨r, h1, Or.inl h2⟩
  · obtain ⟨r, l', rfl⟩ := List.exists_cons_of_ne_nil h
    refine ⟨r, List.mem_cons_self .., Or.inr ?_⟩
    intro x hx
    by_contra hc
    exact ha ⟨x, hx, by simpa using hc⟩

def Still (s : St U) : Prop := s.reqs = [] ∧ s.tasks = [] ∧ s.msgs = [] ∧ s.outs.flatten = []

theorem still_waiting {cap : Nat} (hcap : 1 ≤ cap) {seeds : List U} {tr : List (Ev U)} {s : St U} (h : Run cap (init seeds) tr s) :
    (∀ m, s.main = .handling m → s.limit ≥ 4 → lost tr = 0 → Still s → s.pending = []) ∧
    (s.main = .waiting → s.limit ≥ 4 → lost tr = 0 → Still s → ∃ u, Req.all u ∈ s.pending ++ s.late) := by
  induction h with
  | nil => exact ⟨fun m h => (nomatch h), fun h => (nomatch h)⟩
  | @snoc tr s e s' h hs ih =>
    have hn := nums h
    have hn' := nums (h.snoc hs)
    have hlost : lost (tr ++ [e]) = 0 → lost tr = 0 := by
      intro hl; rw [lost_snoc] at hl; omega
    cases hs with
    | call h1 h2 => exact ⟨fun m h => (nomatch h), fun _ _ _ h => by have := h.1; simp at this⟩
    | ask h1 => exact ⟨fun m _ _ _ h => by have := h.2.1; simp at this, fun _ _ _ h => by have := h.2.1; simp at this⟩
    | @answer r a h1 =>
      have key : lost (tr ++ [Ev.answer r a]) = 0 → ¬ Still { s with tasks := s.tasks.erase r, outs := replies r a :: s.outs } := by
        intro hl hst
        have h2 := hst.2.2.2
        simp only [List.flatten_cons, List.append_eq_nil_iff] at h2
        have h3 := (costs_replies r a tr).2
        rw [h2.1] at h3
        have : lost (tr ++ [Ev.answer r a]) = lost tr + lost [Ev.answer r a] := by simp [lost]
        simp at h3
        omega
      exact ⟨fun m _ _ hl h => absurd h (key hl), fun _ _ hl h => absurd h (key hl)⟩
    | die h1 =>
      have key : ∀ r, lost (tr ++ [Ev.die r]) ≠ 0 := by intro r; simp [Ev.isLost]
      exact ⟨fun m _ _ hl h => absurd hl (key _), fun _ _ hl h => absurd hl (key _)⟩
    | post h1 => exact ⟨fun m _ _ _ h => by have := h.2.2.1; simp at this, fun _ _ _ h => by have := h.2.2.1; simp at this⟩
    | recv h1 h2 => exact ⟨fun m h => (nomatch h), fun h => (nomatch h)⟩
    | skip h1 h2 h3 =>
      exact ⟨fun m h => (nomatch h1.symm.trans h), fun h => (nomatch h1.symm.trans h)⟩
    | push h1 h2 h3 h4 h5 =>
      exact ⟨fun m h => (nomatch h1.symm.trans h), fun h => (nomatch h1.symm.trans h)⟩
    | @drained m h1 h2 =>
      refine ⟨?_, fun h => (nomatch h)⟩
      intro m' _ hlim hl hst
      rcases h2 with h2 | ⟨r, _, _, h2⟩
      · exact h2
      · exfalso
        obtain ⟨s1, s2, s3, s4⟩ := hst
        have hc := hn.chrome
        have hh : held s = [m] := by
          simp only [held, current, h1]
          rw [show s.msgs = [] from s3, show s.outs.flatten = [] from s4]; rfl
        rw [hh, show s.reqs = [] from s1, show s.tasks = [] from s2, hlost hl] at hc
        have hm : m.cost ≤ 2 := by cases m <;> simp [Msg.cost]
        simp at hc
        have hlim' : s.limit ≥ 4 := hlim
        rcases h2 with h2 | h2
        · exact h2 (show s.limit > s.chrome ∧ s.limit - s.chrome ≥ 2 by omega)
        · rw [show s.reqs = [] from s1] at h2; simp at h2; omega
    | @handle m h1 h2 =>
      have he := effect_msgs { s with chrome := s.chrome - m.cost } m
      refine ⟨?_, ?_⟩
      · intro m' hm; unfold leave at hm; simp only [] at hm; split at hm <;> cases hm
      · intro hw hlim hl hst
        obtain ⟨s1, s2, s3, s4⟩ := hst
        have s1' : s.reqs = [] := by rw [← show (effect _ m).reqs = _ from he.2.2.1]; exact s1
        have s2' : s.tasks = [] := by rw [← show (effect _ m).tasks = _ from he.2.2.2.1]; exact s2
        have s3' : s.msgs = [] := by rw [← show (effect _ m).msgs = _ from he.1]; exact s3
        have s4' : s.outs.flatten = [] := by rw [← show (effect _ m).outs = _ from he.2.1]; exact s4
        have hlim' : s.limit ≥ 4 := by rw [← show (effect _ m).limit = _ from he.2.2.2.2.2.2.1]; exact hlim
        have hp := ih.1 m h1 hlim' (hlost hl) ⟨s1', s2', s3', s4'⟩
        by_cases hok : ∃ u, m = .infoOk u
        · obtain ⟨u, rfl⟩ := hok
          exact ⟨u, List.mem_append_left _ (List.mem_cons_self ..)⟩
        · by_cases hpe : ∃ ps, m = .peers ps
          · obtain ⟨ps, rfl⟩ := hpe
            exfalso
            have := (pairs h).next (ps := ps) (by simp [held, current, h1])
            rw [s3', s4'] at this
            simp at this
          · have hpend : (leave (effect { s with chrome := s.chrome - m.cost } m)).pending = [] := by
              cases m <;> simp_all [leave, effect]
            have hc := hn'.count
            have hheld : held (leave (effect { s with chrome := s.chrome - m.cost } m)) = [] := by
              rw [held_leave]; rw [show (effect _ m).msgs = [] from s3, show (effect _ m).outs.flatten = [] from s4]; rfl
            rw [s1, s2, hheld, hpend, hl] at hc
            simp at hc
            by_cases hz : nAll (leave (effect { s with chrome := s.chrome - m.cost } m)).late = 0
            · exfalso
              rw [hz] at hc
              unfold leave at hw
              simp only [] at hw
              rw [if_pos ⟨hc, hpend⟩] at hw
              cases hw
            · obtain ⟨r, hr, ha⟩ := List.countP_pos_iff.1 (Nat.pos_of_ne_zero hz)
              cases r with
              | info u => cases ha
              | all u => exact ⟨u, List.mem_append_right _ hr⟩
    | underflow h1 h2 => exact ⟨fun m h => (nomatch h), fun h => (nomatch h)⟩
    | timeout h1 h2 =>
      refine ⟨fun m h => (by rw [show s.main = _ from h] at h1; cases h1), ?_⟩
      intro hw hlim hl hst
      obtain ⟨u, hu⟩ := ih.2 h1 hlim (hlost hl) hst
      exact ⟨u, by simpa using hu⟩
    | finish h1 => exact ⟨fun m h => (nomatch h), fun h => (nomatch h)⟩

theorem stuck {cap : Nat} (hcap : 1 ≤ cap) {seeds : List U} {tr : List (Ev U)} {s : St U} (h : Run cap (init seeds) tr s)
    (hi : s.main ≠ .idle) (hlim : s.limit ≥ 4) (hl : lost tr = 0) (hst : ∀ e s', Step cap s e s' → e = .timeout) :
    s.main = .waiting ∧ ∃ u, Req.all u ∈ s.pending ++ s.late := by
  have hw : s.main = .waiting := by
    cases hm : s.main with
    | idle => exact absurd hm hi
    | waiting => rfl
    | draining m =>
      exfalso
      by_cases hp : s.pending = []
      · cases hst _ _ (.drained hm (Or.inl hp))
      · obtain ⟨r, hr⟩ := exists_top hp
        by_cases hf : s.fresh r
        · by_cases hroom : s.room ∧ s.reqs.length < cap
          · cases hst _ _ (.push hm hr hf hroom.1 hroom.2)
          · have : ¬ s.room ∨ cap ≤ s.reqs.length := by
              by_cases h1 : s.room
              · right; by_contra hc; exact hroom ⟨h1, by omega⟩
              · exact Or.inl h1
            cases hst _ _ (.drained hm (Or.inr ⟨r, hr, hf, this⟩))
        · unfold St.fresh at hf
          rw [not_or, not_not] at hf
          cases r with
          | info u => cases hst _ _ (.skip hm hr hf.2)
          | all u => exact hf.1 rfl
    | handling m =>
      exfalso
      by_cases hc : m.cost ≤ s.chrome
      · cases hst _ _ (.handle hm hc)
      · cases hst _ _ (.underflow hm (by omega))
    | done => cases hst _ _ (.finish hm)
    | panicked => exact absurd hm (nums h).np
  refine ⟨hw, (still_waiting hcap h).2 hw hlim hl ⟨?_, ?_, ?_, ?_⟩⟩
  · by_contra hc
    obtain ⟨r, l, hr⟩ := List.exists_cons_of_ne_nil hc
    cases hst _ _ (.ask hr)
  · by_contra hc
    obtain ⟨r, l, hr⟩ := List.exists_cons_of_ne_nil hc
    cases hst _ _ (.die (s := s) (r := r) (by rw [hr]; simp))
  · by_contra hc
    obtain ⟨m, l, hr⟩ := List.exists_cons_of_ne_nil hc
    cases hst _ _ (.recv hw hr)
  · by_contra hc
    obtain ⟨m, l, hr⟩ := List.exists_cons_of_ne_nil hc
    have hm : m ∈ s.outs.flatten := by rw [hr]; simp
    obtain ⟨o, ho, hmo⟩ := List.mem_flatten.1 hm
    cases o with
    | nil => cases hmo
    | cons x o =>
      obtain ⟨pre, suf, he⟩ := List.append_of_mem ho
      cases hst _ _ (.post he)

/-! ## Steps are bounded -/

def wReq : Req U → Nat
  | .info _ => 17
  | .all _ => 10
def wTask : Req U → Nat
  | .info _ => 16
  | .all _ => 9
def wPend : Req U → Nat
  | .info _ => 1
  | .all _ => 11
def wMsg : Msg U → Nat
  | .infoOk _ => 11
  | .peers ps => ps.length
  | _ => 0
def wMain : Main U → Nat
  | .idle => 0
  | .waiting => 1
  | .draining m => 3 + wMsg m
  | .handling m => 2 + wMsg m
  | .done => 1
  | .panicked => 0
def sumBy {α : Type} (f : α → Nat) (l : List α) : Nat := (l.map f).sum

@[simp] theorem sumBy_nil {α : Type} (f : α → Nat) : sumBy f [] = 0 := rfl
@[simp] theorem sumBy_cons {α : Type} (f : α → Nat) (x) (l : List α) : sumBy f (x :: l) = f x + sumBy f l := by simp [sumBy]
@[simp] theorem sumBy_append {α : Type} (f : α → Nat) (k l : List α) : sumBy f (k ++ l) = sumBy f k + sumBy f l := by simp [sumBy]
theorem sumBy_erase {α : Type} [DecidableEq α] (f : α → Nat) {r : α} {l : List α} (h : r ∈ l) :
    sumBy f (l.erase r) + f r = sumBy f l := by
  unfold sumBy
  rw [((List.perm_cons_erase h).map f).sum_nat, List.map_cons, List.sum_cons]
  omega
theorem sumBy_info (ps : List U) : sumBy wPend (ps.map Req.info) = ps.length := by
  induction ps with
  | nil => rfl
  | cons p ps ih => simp [ih, wPend]; omega

def pot (s : St U) : Nat :=
  wMain s.main + (if s.main ≠ .idle ∧ s.addPeers = true then 1 else 0) + sumBy wPend s.pending + sumBy wPend s.late +
  sumBy wReq s.reqs + sumBy wTask s.tasks + sumBy (fun m => 4 + wMsg m) s.outs.flatten + sumBy (fun m => 3 + wMsg m) s.msgs

def gain : Ev U → Nat
  | .call _ _ => 19
  | .push (.info _) => 17
  | .answer (.all _) (.ok ps) => ps.length
  | _ => 0

theorem wMain_done (t : St U) (h : t.main ≠ .idle) : wMain (leave t).main = 1 ∧ (leave t).main ≠ .idle := by
  unfold leave; simp only []; split <;> simp [wMain]

theorem pot_step {cap : Nat} {s s' : St U} {e : Ev U} (hs : Step cap s e s') (hl : s.main = .idle → s.late = []) :
    pot s' + 1 ≤ pot s + gain e := by
  cases hs with
  | @call n r h1 h2 =>
    have := sumBy_erase wPend h2.1
    cases r <;> simp [pot, h1, wMain, gain, hl h1, wReq, wPend] at this ⊢ <;> omega
  | @ask r rest h1 => cases r <;> simp [pot, h1, gain, wReq, wTask] <;> omega
  | @answer r a h1 =>
    have := sumBy_erase wTask h1
    cases r <;> cases a <;> simp [pot, gain, wTask, wMsg, replies] at this ⊢ <;> omega
  | @die r h1 =>
    have := sumBy_erase wTask h1
    cases r <;> simp [pot, gain, wTask] at this ⊢ <;> omega
  | @post m o pre suf h1 => simp [pot, h1, gain]; omega
  | @recv m rest h1 h2 => simp [pot, h1, h2, gain, wMain]; omega
  | @skip m u h1 h2 h3 =>
    have := sumBy_erase wPend h2.1
    simp [pot, h1, gain, wPend] at this ⊢; omega
  | @push m r h1 h2 h3 h4 h5 =>
    have := sumBy_erase wPend h2.1
    cases r <;> simp [pot, h1, gain, wPend, wReq] at this ⊢ <;> omega
  | @drained m h1 h2 => simp [pot, h1, gain, wMain]; omega
  | @handle m h1 h2 =>
    have he := effect_msgs { s with chrome := s.chrome - m.cost } m
    have hw := wMain_done (effect { s with chrome := s.chrome - m.cost } m) (by rw [he.2.2.2.2.2.2.2.1]; simp [h1])
    have e1 : (leave (effect { s with chrome := s.chrome - m.cost } m)).addPeers = s.addPeers := he.2.2.2.2.2.1
    have e2 : (leave (effect { s with chrome := s.chrome - m.cost } m)).reqs = s.reqs := he.2.2.1
    have e3 : (leave (effect { s with chrome := s.chrome - m.cost } m)).tasks = s.tasks := he.2.2.2.1
    have e4 : (leave (effect { s with chrome := s.chrome - m.cost } m)).outs = s.outs := he.2.1
    have e5 : (leave (effect { s with chrome := s.chrome - m.cost } m)).msgs = s.msgs := he.1
    have e6 : sumBy wPend (leave (effect { s with chrome := s.chrome - m.cost } m)).pending +
        sumBy wPend (leave (effect { s with chrome := s.chrome - m.cost } m)).late = sumBy wPend s.pending + sumBy wPend s.late + wMsg m := by
      cases m <;> simp only [leave, effect, wMsg] <;> (try split) <;> simp [sumBy_info, wPend] <;> omega
    obtain ⟨hw1, hw2⟩ := hw
    generalize leave (effect { s with chrome := s.chrome - m.cost } m) = T at *
    unfold pot
    rw [hw1, e1, e2, e3, e4, e5]
    simp only [hw2, h1, gain, wMain, ne_eq, not_false_eq_true, true_and, reduceCtorEq]
    omega
  | @underflow m h1 h2 => simp [pot, h1, gain, wMain]; split <;> omega
  | @timeout h1 h2 => simp [pot, h1, h2, gain, wMain]; omega
  | @finish h1 => simp [pot, h1, gain, wMain]; omega

theorem pot_run {cap : Nat} {seeds : List U} {tr : List (Ev U)} {s : St U} (h : Run cap (init seeds) tr s) :
    tr.length + pot s ≤ seeds.length + sumBy gain tr := by
  induction h with
  | nil => simp [pot, init, wMain, sumBy_info]
  | @snoc tr s e s' h hs ih =>
    have := pot_step hs fun hi => ((content h).idleLate hi).1
    simp
    omega

end Verif.Chrome
