import Verif.Spec.Timer
import Verif.Proofs.TimerHeap

set_option linter.unusedSimpArgs false
set_option linter.unusedVariables false

namespace Verif
namespace Timer
open TimerHeap Spec.TimerHeap
open Spec.Timer (Delay delay Allowed Program Touches Reached Interleave)

theorem le_total : TotalPre HeapTimer.le :=
  ⟨fun a b => by simp only [HeapTimer.le, decide_eq_true_eq]; omega,
   fun a b c h1 h2 => by simp only [HeapTimer.le, decide_eq_true_eq] at *; omega⟩

/-- What always holds of a timer that has not been dropped, with the delays `σ`. -/
structure J (w : World) (σ : Nat → Delay) : Prop where
  heap : Inv HeapTimer.le w.heap
  slot : ∀ n s, (w.node n).slot = some s ↔ ∃ e, contents w.heap s = some e ∧ e.node = n
  nodup : (w.list ++ w.taken).Nodup
  enq : ∀ n, n ∈ w.list ++ w.taken ↔ (w.node n).enqueued = true
  gone : w.gone = false
  absent : ∀ n, σ n = .absent → (w.node n).slot = none ∧ (w.node n).enqueued = false
  dropped : ∀ n, σ n = .dropped → (w.node n).due = none ∧ (n ∉ w.list ++ w.taken → (w.node n).slot = none)
  live : ∀ n d s f, σ n = .live d s f → w.held n = true ∧ (w.node n).due = some d ∧
    ∃ g, (w.node n).state = 4 * g + (if f then 1 else 0) ∧ (s = true ↔ n ∉ w.list ++ w.taken) ∧ (f = true → s = true) ∧
      (∀ k e, contents w.heap k = some e → e.node = n → if s then e = ⟨d, g, n⟩ ∧ f = false else e.gen < g) ∧
      (s = true → f = false → ∃ k, contents w.heap k = some ⟨d, g, n⟩)
  whn : ∀ n d s f, σ n = .live d s f → w.when_ n = d

theorem J.new : J World.new fun _ => .absent := by
  refine ⟨inv_new, ?_, by simp [World.new], by simp [World.new], rfl, by simp [World.new], by simp, by simp, by simp⟩
  intro n s
  simp [World.new, contents, Heap.new]

@[simp] theorem upd_node (w : World) (n : Nat) (f : Node → Node) (k : Nat) :
    (w.upd n f).node k = if k = n then f (w.node k) else w.node k := rfl

@[simp] theorem upd_list (w : World) (n : Nat) (f : Node → Node) : (w.upd n f).list = w.list := rfl
@[simp] theorem upd_taken (w : World) (n : Nat) (f : Node → Node) : (w.upd n f).taken = w.taken := rfl
@[simp] theorem upd_heap (w : World) (n : Nat) (f : Node → Node) : (w.upd n f).heap = w.heap := rfl
@[simp] theorem upd_gone (w : World) (n : Nat) (f : Node → Node) : (w.upd n f).gone = w.gone := rfl
@[simp] theorem upd_held (w : World) (n : Nat) (f : Node → Node) : (w.upd n f).held = w.held := rfl
@[simp] theorem upd_cur (w : World) (n : Nat) (f : Node → Node) : (w.upd n f).cur = w.cur := rfl
@[simp] theorem upd_when (w : World) (n : Nat) (f : Node → Node) : (w.upd n f).when_ = w.when_ := rfl

/-- Another state of the delay `n`. -/
def put (σ : Nat → Delay) (n : Nat) (x : Delay) : Nat → Delay := fun k => if k = n then x else σ k

/-! ## Calls on delays -/

/-- What the calls on a delay have in common: the deadline and the state word of `n` are set, and `n` is put on the list. -/
theorem touch {w : World} {σ : Nat → Delay} (hJ : J w σ) (n : Nat) (due : Option Nat) (st : Nat) (held : Nat → Bool)
    (whn : Nat → Nat) (x : Delay) (hn : x ≠ .absent) (hh : ∀ k, k ≠ n → held k = w.held k)
    (hw : ∀ k, k ≠ n → whn k = w.when_ k) (hwx : ∀ d s f, x = .live d s f → whn n = d)
    (hx : (x = .dropped ∧ due = none) ∨
      ∃ d g, x = .live d false false ∧ due = some d ∧ held n = true ∧ st = 4 * g ∧
        ∀ k e, contents w.heap k = some e → e.node = n → e.gen < g) :
    J { (w.upd n fun y => { y with due := due, state := st }).push n with held := held, when_ := whn } (put σ n x) := by
  have hmem : ∀ k, k ∈ ((w.upd n fun y => { y with due := due, state := st }).push n).list ++ w.taken ↔ k = n ∨ k ∈ w.list ++ w.taken := by
    intro k
    unfold World.push
    split
    · rename_i he
      simp at he
      have := (hJ.enq n).2 he
      simp only [upd_list]
      constructor
      · exact Or.inr
      · rintro (rfl | h)
        · exact this
        · exact h
    · simp [or_assoc]
  have htk : ((w.upd n fun y => { y with due := due, state := st }).push n).taken = w.taken := by
    unfold World.push; split <;> rfl
  have hhp : ((w.upd n fun y => { y with due := due, state := st }).push n).heap = w.heap := by
    unfold World.push; split <;> rfl
  have hnode : ∀ k, ((w.upd n fun y => { y with due := due, state := st }).push n).node k =
      if k = n then { w.node k with due := due, state := st, enqueued := true } else w.node k := by
    intro k
    unfold World.push
    split
    · rename_i he
      simp at he
      by_cases e : k = n
      · subst e
        simp only [upd_node, if_true]
        cases hk : w.node k
        simp_all
      · simp [e]
    · by_cases e : k = n <;> simp [e]
  constructor
  · simpa only [hhp] using hJ.heap
  · intro m s
    simp only [hhp, hnode]
    rw [← hJ.slot m s]
    split <;> simp
  · simp only [htk]
    unfold World.push
    split
    · exact hJ.nodup
    · rename_i he
      simp at he
      simp only [List.cons_append, List.nodup_cons]
      exact ⟨fun h => by change n ∈ w.list ++ w.taken at h; rw [hJ.enq] at h; simp [h] at he, hJ.nodup⟩
  · intro k
    simp only [htk, hmem, hnode]
    by_cases e : k = n
    · simp [e]
    · simp only [e, if_false, false_or]; exact hJ.enq k
  · have : ((w.upd n fun y => { y with due := due, state := st }).push n).gone = w.gone := by
      unfold World.push; split <;> rfl
    exact this.trans hJ.gone
  · intro k hk
    by_cases e : k = n
    · subst e; simp [put] at hk; exact absurd hk hn
    · simp only [put, e, if_false] at hk
      simp only [hnode, e, if_false]
      exact hJ.absent k hk
  · intro k hk
    simp only [htk, hmem, hnode]
    by_cases e : k = n
    · subst e
      simp only [put, if_true] at hk
      simp only [if_true, true_or, not_true_eq_false, false_imp_iff, and_true]
      rcases hx with ⟨_, h⟩ | ⟨d, g, h, _⟩
      · exact h
      · rw [h] at hk; cases hk
    · simp only [put, e, if_false] at hk
      simp only [e, if_false, false_or]
      exact hJ.dropped k hk
  · intro k d s f hk
    simp only [htk, hmem, hnode, hhp]
    by_cases e : k = n
    · subst e
      simp only [put, if_true] at hk
      rcases hx with ⟨h, _⟩ | ⟨d', g, h, h1, h2, h3, h4⟩
      · rw [h] at hk; cases hk
      · rw [h] at hk
        cases hk
        refine ⟨h2, by simp [h1], g, by simp [h3], by simp, by simp, ?_, by simp⟩
        intro j e' hj he'
        simpa using h4 j e' hj he'
    · simp only [put, e, if_false] at hk
      simp only [e, if_false, false_or]
      rw [hh k e]
      exact hJ.live k d s f hk
  · intro k d s f hk
    by_cases e : k = n
    · subst e
      simp only [put, if_true] at hk
      exact hwx d s f hk
    · simp only [put, e, if_false] at hk
      exact (hw k e).trans (hJ.whn k d s f hk)

/-- The state word of a live delay. -/
theorem cas_live {w : World} {σ : Nat → Delay}
    (hJ : ∀ n d s f, σ n = .live d s f → w.held n = true ∧ (w.node n).due = some d ∧
      ∃ g, (w.node n).state = 4 * g + (if f then 1 else 0) ∧ (s = true ↔ n ∉ w.list ++ w.taken) ∧ (f = true → s = true) ∧
        (∀ k e, contents w.heap k = some e → e.node = n → if s then e = ⟨d, g, n⟩ ∧ f = false else e.gen < g) ∧
        (s = true → f = false → ∃ k, contents w.heap k = some ⟨d, g, n⟩)) {n d : Nat} {s f : Bool} (h : σ n = .live d s f) :
    ∃ g, (w.node n).state = 4 * g + (if f then 1 else 0) ∧
      w.cas n = some (w.upd n fun x => { x with state := 4 * (g + 1) }) ∧
      ∀ k e, contents w.heap k = some e → e.node = n → e.gen < g + 1 := by
  obtain ⟨_, _, g, hg, _, _, he, _⟩ := hJ n d s f h
  refine ⟨g, hg, ?_, ?_⟩
  · unfold World.cas
    have h1 : ¬ (w.node n).state / 2 % 2 = 1 := by
      rw [hg]; split <;> omega
    rw [if_neg h1]
    congr 1
    unfold World.upd
    congr 1
    funext k
    by_cases e : k = n
    · subst e
      simp only [if_true]
      congr 1
      rw [hg]; split <;> omega
    · simp [e]
  · intro k e hk hn
    have := he k e hk hn
    split at this
    · rw [this.1]; exact Nat.lt_succ_self g
    · omega

theorem create_J {w : World} {σ : Nat → Delay} (hJ : J w σ) {n due : Nat} (h : σ n = .absent) :
    J (w.create n due) (put σ n (.live due false false)) := by
  obtain ⟨h1, h2⟩ := hJ.absent n h
  have hw : J (w.upd n fun y => { y with due := some due, state := 0 }) (put σ n .dropped) → True := fun _ => trivial
  have key := touch hJ n (some due) (4 * 0) (fun k => if k = n then true else w.held k)
    (fun k => if k = n then due else w.when_ k) (.live due false false) (by simp) (fun k hk => by simp [hk])
    (fun k hk => by simp [hk]) (fun d s f h => by cases h; simp)
    (Or.inr ⟨due, 0, rfl, rfl, by simp, rfl, fun k e hk hn => by
      have := (hJ.slot n k).2 ⟨e, hk, hn⟩
      rw [h1] at this; cases this⟩)
  unfold World.create
  rw [hJ.gone]
  have he : (w.upd n fun _ => (⟨some due, 0, none, false⟩ : Node)) = w.upd n fun y => { y with due := some due, state := 0 } := by
    unfold World.upd
    congr 1
    funext k
    by_cases e : k = n
    · subst e; simp [h1, h2]
    · simp [e]
  simp only [Bool.false_eq_true, if_false]
  rw [he]
  have hheld : ((w.upd n fun y => { y with due := some due, state := 0 }).push n).held = w.held := by
    unfold World.push; split <;> rfl
  have hwhen : ((w.upd n fun y => { y with due := some due, state := 0 }).push n).when_ = w.when_ := by
    unfold World.push; split <;> rfl
  simp only [hheld, hwhen]
  exact key

theorem reset_J {w : World} {σ : Nat → Delay} (hJ : J w σ) {n due d : Nat} {s f : Bool} (h : σ n = .live d s f) :
    J (w.reset n due) (put σ n (.live due false false)) := by
  obtain ⟨hheld, _⟩ := hJ.live n d s f h
  obtain ⟨g, hg, hc, hlt⟩ := cas_live (w := { w with when_ := fun k => if k = n then due else w.when_ k }) hJ.live h
  unfold World.reset
  dsimp only
  rw [if_pos hheld, if_neg (by simp [hJ.gone]), hc]
  dsimp only
  have key := touch hJ n (some due) (4 * (g + 1)) w.held (fun k => if k = n then due else w.when_ k) (.live due false false)
    (by simp) (fun k hk => rfl) (fun k hk => by simp [hk]) (fun d s f h => by cases h; simp) (Or.inr ⟨due, g + 1, rfl, rfl, hheld, rfl, hlt⟩)
  have he : (({ w with when_ := fun k => if k = n then due else w.when_ k }.upd n fun x => { x with state := 4 * (g + 1) }).setAt n
      (some due)) = { w with when_ := fun k => if k = n then due else w.when_ k }.upd n
      fun y => { y with due := some due, state := 4 * (g + 1) } := by
    unfold World.setAt World.upd
    congr 1
    funext k
    by_cases e : k = n <;> simp [e]
  rw [he]
  have fix : ∀ v : World, v.held = w.held → v.when_ = (fun k => if k = n then due else w.when_ k) →
      J { v with held := w.held, when_ := fun k => if k = n then due else w.when_ k } (put σ n (.live due false false)) →
      J v (put σ n (.live due false false)) := by
    intro v h1 h2 h3; rw [← h1, ← h2] at h3; exact h3
  refine fix _ (by unfold World.push; split <;> rfl) (by unfold World.push; split <;> rfl) ?_
  have push_when : ∀ (v : World) (x : Nat → Nat), { v with when_ := x }.push n = { v.push n with when_ := x } := by
    intro v x; unfold World.push; dsimp only; split <;> rfl
  have upd_when' : ({ w with when_ := fun k => if k = n then due else w.when_ k } : World).upd n
      (fun y => { y with due := some due, state := 4 * (g + 1) }) =
      { w.upd n (fun y => { y with due := some due, state := 4 * (g + 1) }) with
        when_ := fun k => if k = n then due else w.when_ k } := rfl
  rw [upd_when', push_when]
  exact key

theorem dropDelay_J {w : World} {σ : Nat → Delay} (hJ : J w σ) {n d : Nat} {s f : Bool} (h : σ n = .live d s f) :
    J (w.dropDelay n) (put σ n .dropped) := by
  obtain ⟨hheld, _⟩ := hJ.live n d s f h
  unfold World.dropDelay
  rw [if_pos hheld, hJ.gone]
  simp only [Bool.false_eq_true, if_false]
  have key := touch hJ n none (w.node n).state w.held w.when_ .dropped (by simp) (fun k hk => rfl)
    (fun k hk => rfl) (fun d s f h => by cases h) (Or.inl ⟨rfl, rfl⟩)
  have he : w.setAt n none = w.upd n fun y => { y with due := none, state := (w.node n).state } := by
    unfold World.setAt World.upd
    congr 1
    funext k
    by_cases e : k = n <;> simp [e]
  rw [he]
  have : ∀ v : World, v.held = w.held → v.when_ = w.when_ → v = { v with held := w.held, when_ := w.when_ } := by
    intro v h1 h2; rw [← h1, ← h2]
  rw [this ((w.upd n fun y => { y with due := none, state := (w.node n).state }).push n)
    (by unfold World.push; split <;> rfl) (by unfold World.push; split <;> rfl)]
  exact key

/-! ## Polling the timer -/

/-- The delay after the timer has seen it. -/
def see : Delay → Delay
  | .live d _ f => .live d true f
  | x => x

theorem pickApply {w : World} {σ : Nat → Delay} (hJ : J w σ) {n : Nat} {l : List Nat} (ht : w.taken = n :: l) :
    ∃ w1 w2, w.pick = .ok w1 ∧ w1.apply = .ok w2 ∧ J w2 (put σ n (see (σ n))) ∧ w2.taken = l ∧ w2.list = w.list ∧
      w2.held = w.held ∧ w2.when_ = w.when_ := by
  have hn : n ∈ w.list ++ w.taken := by simp [ht]
  have henq := (hJ.enq n).1 hn
  have hnd := hJ.nodup
  rw [ht] at hnd
  have hnl : n ∉ w.list ++ l := by
    rw [List.nodup_append] at hnd
    obtain ⟨_, h2, h3⟩ := hnd
    rw [List.nodup_cons] at h2
    simp only [List.mem_append, not_or]
    exact ⟨fun h => h3 n h n (by simp) rfl, h2.1⟩
  have hnd' : (w.list ++ l).Nodup := by
    rw [List.nodup_append] at hnd ⊢
    obtain ⟨h1, h2, h3⟩ := hnd
    exact ⟨h1, (List.nodup_cons.1 h2).2, fun a ha b hb => h3 a ha b (List.mem_cons_of_mem _ hb)⟩
  have hmem : ∀ k, k ≠ n → (k ∈ w.list ++ l ↔ k ∈ w.list ++ w.taken) := by
    intro k hk; simp [ht, hk]
  have henq' : ∀ k, k ∈ w.list ++ l ↔ ((if k = n then { w.node k with enqueued := false } else w.node k : Node)).enqueued = true := by
    intro k
    by_cases e : k = n
    · subst e; simp only [if_true]; simpa using hnl
    · simp only [e, if_false]; rw [hmem k e]; exact hJ.enq k
  have hna : σ n ≠ .absent := fun h => by have := (hJ.absent n h).2; rw [henq] at this; cases this
  -- the heap without the entry of `n`
  obtain ⟨h1, hrm, hi1, hc1⟩ : ∃ h1, w.unlink n = .ok h1 ∧ Inv HeapTimer.le h1 ∧
      contents h1 = fun k => if (w.node n).slot = some k then none else contents w.heap k := by
    rcases hs : (w.node n).slot with _ | s
    · exact ⟨w.heap, by simp [World.unlink, hs], hJ.heap, by simp⟩
    · obtain ⟨e, he, _⟩ := (hJ.slot n s).1 hs
      obtain ⟨h1, hr, hi, hc, _⟩ := remove_spec le_total hJ.heap he
      refine ⟨h1, by simp [World.unlink, hs, hr], hi, ?_⟩
      rw [hc]
      funext k
      simp [eq_comm]
  -- entries of other nodes stay, those of `n` go
  have hoth : ∀ k e, e.node ≠ n → (contents h1 k = some e ↔ contents w.heap k = some e) := by
    intro k e hne
    rw [hc1]
    dsimp only
    split
    · rename_i hs
      obtain ⟨e', he', hn'⟩ := (hJ.slot n k).1 hs
      simp only [reduceCtorEq, false_iff]
      intro h
      rw [he'] at h; cases h
      exact hne hn'
    · rfl
  have hown : ∀ k e, e.node = n → contents h1 k ≠ some e := by
    intro k e hen h
    rw [hc1] at h
    dsimp only at h
    split at h
    · cases h
    · rename_i hs
      exact hs ((hJ.slot n k).2 ⟨e, h, hen⟩)
  rcases hd : (w.node n).due with _ | d
  · -- dropped
    have hσ : σ n = .dropped := by
      rcases hσ : σ n with _ | ⟨d, s, f⟩ | _
      · exact absurd hσ hna
      · have := (hJ.live n d s f hσ).2.1; rw [hd] at this; cases this
      · rfl
    refine ⟨{ w.upd n (fun x => { x with enqueued := false }) with taken := l, cur := some (n, none) },
      { w.upd n (fun x => { x with enqueued := false, slot := none }) with taken := l, cur := none, heap := h1 },
      by simp [World.pick, ht, henq, hd], ?_, ?_, rfl, rfl, rfl, rfl⟩
    · simp only [World.apply, World.removeNode]
      rcases hs : (w.node n).slot with _ | s
      · simp only [World.unlink, hs, Outcome.ok.injEq] at hrm
        simp only [upd_node, if_true, hs]
        subst hrm
        simp only [World.upd, Outcome.ok.injEq, World.mk.injEq, true_and, and_true]
        funext k
        by_cases e : k = n
        · subst e; simp [hs]
        · simp [e]
      · simp only [World.unlink, hs] at hrm
        have hnode : ({ w.upd n (fun x => { x with enqueued := false }) with taken := l, cur := none } : World).node n =
            { w.node n with enqueued := false } := by simp
        simp only [upd_node, if_true, hs]
        rcases hr : w.heap.remove HeapTimer.le s with ⟨x, h⟩ | _ | _ <;> rw [hr] at hrm <;> simp at hrm
        subst hrm
        simp only [hr, upd_heap, Outcome.bind_ok, World.upd, Outcome.ok.injEq, World.mk.injEq, true_and, and_true]
        funext k
        by_cases e : k = n
        · subst e; simp
        · simp [e]
    · have hsee : put σ n (see (σ n)) = σ := by
        funext k
        by_cases e : k = n
        · subst e; simp [put, hσ, see]
        · simp [put, e]
      rw [hsee]
      constructor
      · exact hi1
      · intro m s
        simp only [upd_node]
        by_cases e : m = n
        · subst e
          simp only [if_true, reduceCtorEq, false_iff, not_exists, not_and]
          intro e' h he'
          exact hown _ _ he' h
        · simp only [e, if_false]
          rw [hJ.slot m s]
          constructor
          · rintro ⟨e', h, hm⟩; exact ⟨e', (hoth s e' (by rw [hm]; exact e)).2 h, hm⟩
          · rintro ⟨e', h, hm⟩; exact ⟨e', (hoth s e' (by rw [hm]; exact e)).1 h, hm⟩
      · exact hnd'
      · intro k
        have := henq' k
        simp only [upd_list, upd_node]
        rw [this]
        by_cases e : k = n <;> simp [e]
      · exact hJ.gone
      · intro k hk
        have hkn : k ≠ n := by rintro rfl; rw [hσ] at hk; cases hk
        simp only [upd_node, hkn, if_false]
        exact hJ.absent k hk
      · intro k hk
        simp only [upd_list, upd_node]
        by_cases e : k = n
        · subst e; simp [hd]
        · simp only [e, if_false]
          rw [hmem k e]
          exact hJ.dropped k hk
      · intro k d s f hk
        have hkn : k ≠ n := by rintro rfl; rw [hσ] at hk; cases hk
        obtain ⟨a1, a2, g, a3, a4, a5, a6, a7⟩ := hJ.live k d s f hk
        simp only [upd_node, hkn, if_false, upd_list]
        rw [hmem k hkn]
        refine ⟨a1, a2, g, a3, a4, a5, ?_, ?_⟩
        · intro j e hj he
          exact a6 j e ((hoth j e (by rw [he]; exact hkn)).1 hj) he
        · intro h1' h2'
          obtain ⟨j, hj⟩ := a7 h1' h2'
          exact ⟨j, (hoth j _ (by exact hkn)).2 hj⟩
      · exact hJ.whn
  · -- live
    have hσ : ∃ s f, σ n = .live d s f := by
      rcases hσ : σ n with _ | ⟨d', s, f⟩ | _
      · exact absurd hσ hna
      · have := (hJ.live n d' s f hσ).2.1
        rw [hd] at this; cases this
        exact ⟨s, f, rfl⟩
      · have := (hJ.dropped n hσ).1; rw [hd] at this; cases this
    obtain ⟨s0, f0, hσ⟩ := hσ
    obtain ⟨a1, a2, g, a3, a4, a5, a6, a7⟩ := hJ.live n d s0 f0 hσ
    have hs0 : s0 = false := by
      cases s0
      · rfl
      · exact absurd hn (a4.1 rfl)
    subst hs0
    have hf0 : f0 = false := by
      cases f0
      · rfl
      · exact absurd (a5 rfl) (by simp)
    subst hf0
    have hgen : (w.node n).state / 4 = g := by rw [a3]; simp
    obtain ⟨sl, h2, hpush, hi2, hfree, hc2⟩ := push_spec le_total hi1 (⟨d, g, n⟩ : HeapTimer)
    refine ⟨{ w.upd n (fun x => { x with enqueued := false }) with taken := l, cur := some (n, some d) },
      { w.upd n (fun x => { x with enqueued := false, slot := some sl }) with taken := l, cur := none, heap := h2 },
      by simp [World.pick, ht, henq, hd], ?_, ?_, rfl, rfl, rfl, rfl⟩
    · have hrm' : ∀ v : World, v.heap = w.heap → (v.node n).slot = (w.node n).slot →
          v.unlink n = .ok h1 := by
        intro v e1 e2; unfold World.unlink; rw [e1, e2]; exact hrm
      simp only [World.apply, World.updateOrAdd]
      rw [hrm' _ (by rfl) (by simp)]
      simp only [Outcome.bind_ok, upd_node, if_true, hgen, hpush]
      simp only [World.upd, Outcome.ok.injEq, World.mk.injEq, true_and, and_true]
      funext k
      by_cases e : k = n
      · subst e; simp
      · simp [e]
    · have hput : put σ n (see (σ n)) = put σ n (.live d true false) := by rw [hσ]; rfl
      rw [hput]
      have hc2' : ∀ k e, e.node ≠ n → (contents h2 k = some e ↔ contents w.heap k = some e) := by
        intro k e hne
        rw [hc2]
        dsimp only
        split
        · rename_i hk
          subst hk
          constructor
          · intro h; injection h with h; exact absurd (by rw [← h]) hne
          · intro h
            have := (hoth k e hne).2 h
            rw [hfree] at this; cases this
        · exact hoth k e hne
      have hown2 : ∀ k e, e.node = n → contents h2 k = some e → k = sl ∧ e = ⟨d, g, n⟩ := by
        intro k e hen h
        rw [hc2] at h
        dsimp only at h
        split at h
        · rename_i hk; injection h with h; exact ⟨hk, h.symm⟩
        · exact absurd h (hown k e hen)
      have hself : contents h2 sl = some ⟨d, g, n⟩ := by rw [hc2]; simp
      constructor
      · exact hi2
      · intro m s
        simp only [upd_node]
        by_cases e : m = n
        · subst e
          simp only [if_true, Option.some.injEq]
          constructor
          · rintro rfl; exact ⟨_, hself, rfl⟩
          · rintro ⟨e', h, hm⟩; exact (hown2 s e' hm h).1.symm
        · simp only [e, if_false]
          rw [hJ.slot m s]
          constructor
          · rintro ⟨e', h, hm⟩; exact ⟨e', (hc2' s e' (by rw [hm]; exact e)).2 h, hm⟩
          · rintro ⟨e', h, hm⟩; exact ⟨e', (hc2' s e' (by rw [hm]; exact e)).1 h, hm⟩
      · exact hnd'
      · intro k
        have := henq' k
        simp only [upd_list, upd_node]
        rw [this]
        by_cases e : k = n <;> simp [e]
      · exact hJ.gone
      · intro k hk
        by_cases e : k = n
        · subst e; simp [put] at hk
        · simp only [put, e, if_false] at hk
          simp only [upd_node, e, if_false]
          exact hJ.absent k hk
      · intro k hk
        by_cases e : k = n
        · subst e; simp [put] at hk
        · simp only [put, e, if_false] at hk
          simp only [upd_node, e, if_false, upd_list]
          rw [hmem k e]
          exact hJ.dropped k hk
      · intro k d' s f hk
        by_cases e : k = n
        · subst e
          simp only [put, if_true] at hk
          cases hk
          simp only [upd_node, if_true, upd_list]
          refine ⟨a1, hd, g, a3, by simpa using hnl, by simp, ?_, fun _ _ => ⟨sl, hself⟩⟩
          intro j e hj he
          simp [(hown2 j e he hj).2]
        · simp only [put, e, if_false] at hk
          obtain ⟨b1, b2, g', b3, b4, b5, b6, b7⟩ := hJ.live k d' s f hk
          simp only [upd_node, e, if_false, upd_list]
          rw [hmem k e]
          refine ⟨b1, b2, g', b3, b4, b5, ?_, ?_⟩
          · intro j e' hj he'
            exact b6 j e' ((hc2' j e' (by rw [he']; exact e)).1 hj) he'
          · intro h1' h2'
            obtain ⟨j, hj⟩ := b7 h1' h2'
            exact ⟨j, (hc2' j _ (by exact e)).2 hj⟩
      · intro k d' s f hk
        by_cases e : k = n
        · subst e
          simp only [put, if_true] at hk
          cases hk
          exact hJ.whn _ _ _ _ hσ
        · simp only [put, e, if_false] at hk
          exact hJ.whn k d' s f hk

theorem process_J : ∀ (l : List Nat) {w : World} {σ : Nat → Delay}, J w σ → w.taken = l → w.list = [] →
    ∃ w', World.process l.length w = .ok w' ∧ J w' (fun n => see (σ n)) ∧ w'.taken = [] ∧ w'.list = [] ∧ w'.held = w.held ∧
      w'.when_ = w.when_
  | [], w, σ, hJ, ht, hl => by
    refine ⟨w, rfl, ?_, ht, hl, rfl, rfl⟩
    have : (fun n => see (σ n)) = σ := by
      funext n
      rcases h : σ n with _ | ⟨d, s, f⟩ | _
      · rfl
      · have hs := (hJ.live n d s f h).2.2.choose_spec.2.1
        rw [ht, hl] at hs
        simp at hs
        rw [hs]; rfl
      · rfl
    rw [this]
    exact hJ
  | n :: l, w, σ, hJ, ht, hl => by
    obtain ⟨w1, w2, e1, e2, hJ2, ht2, hl2, hh2, hw2⟩ := pickApply hJ ht
    obtain ⟨w', e3, hJ3, ht3, hl3, hh3, hw3⟩ := process_J l hJ2 ht2 (hl2.trans hl)
    refine ⟨w', ?_, ?_, ht3, hl3, hh3.trans hh2, hw3.trans hw2⟩
    · rw [List.length_cons, World.process, e1]
      simp only [Outcome.bind_ok, e2, e3]
    · have : (fun k => see (put σ n (see (σ n)) k)) = fun k => see (σ k) := by
        funext k
        by_cases e : k = n
        · subst e
          simp only [put, if_true]
          cases σ k <;> rfl
        · simp [put, e]
      rw [← this]
      exact hJ3

theorem pollTimer_J {w : World} {σ : Nat → Delay} (hJ : J w σ) (ht : w.taken = []) :
    ∃ w', w.pollTimer = .ok w' ∧ J w' (fun n => see (σ n)) ∧ w'.taken = [] ∧ w'.list = [] ∧ w'.held = w.held ∧
      w'.when_ = w.when_ := by
  have hJ' : J w.take σ := by
    have e : w.take.list ++ w.take.taken = w.list ++ w.taken := by simp [World.take, ht]
    exact ⟨hJ.heap, hJ.slot, e ▸ hJ.nodup, fun n => by rw [e]; exact hJ.enq n, hJ.gone, hJ.absent,
      fun n h => by rw [e]; exact hJ.dropped n h, fun n d s f h => by rw [e]; exact hJ.live n d s f h, hJ.whn⟩
  obtain ⟨w', e1, e2, e3, e4, e5, e6⟩ := process_J w.take.taken hJ' rfl rfl
  refine ⟨w', ?_, e2, e3, e4, e5, e6⟩
  unfold World.pollTimer
  rw [hJ.gone]
  exact e1

/-! ## Advancing the timer -/

/-- The delay after an advance to `now`. -/
def hit (now : Nat) : Delay → Delay
  | .live d s f => .live d s (f || (s && decide (d ≤ now)))
  | x => x

/-- Firing the entry `e` of the heap. -/
theorem fire_J {w : World} {σ : Nat → Delay} (hJ : J w σ) {k0 : Nat} {e : HeapTimer} {h' : Heap HeapTimer}
    (he : contents w.heap k0 = some e) (hi : Inv HeapTimer.le h')
    (hc : contents h' = fun k => if k = k0 then none else contents w.heap k) :
    ∃ σ', J ({ w with heap := h' }.fire e) σ' ∧ ∀ now, e.due ≤ now → ∀ n, hit now (σ' n) = hit now (σ n) := by
  have hsl := (hJ.slot e.node k0).2 ⟨e, he, rfl⟩
  have hoth : ∀ k e', e'.node ≠ e.node → (contents h' k = some e' ↔ contents w.heap k = some e') := by
    intro k e' hne
    rw [hc]
    dsimp only
    split
    · rename_i hk
      subst hk
      simp only [reduceCtorEq, false_iff]
      intro h
      rw [he] at h; cases h
      exact hne rfl
    · rfl
  have hown : ∀ k e', e'.node = e.node → contents h' k ≠ some e' := by
    intro k e' hn h
    rw [hc] at h
    dsimp only at h
    split at h
    · cases h
    · rename_i hk
      have := (hJ.slot e.node k).2 ⟨e', h, hn⟩
      rw [hsl] at this
      injection this with this
      exact hk this.symm
  -- the common part
  have common : ∀ x : Delay, (x = σ e.node ∨ ∃ d, σ e.node = .live d true false ∧ x = .live d true true) →
      (∀ d s f, x = .live d s f → ∃ g,
        (if (w.node e.node).state = 4 * e.gen then 4 * e.gen + 1 else (w.node e.node).state) = 4 * g + (if f then 1 else 0) ∧
        (s = true → f = true)) →
      J ({ w with heap := h' }.fire e) (put σ e.node x) := by
    intro x hx hst
    constructor
    · exact hi
    · intro m s
      simp only [World.fire, upd_node]
      by_cases e1 : m = e.node
      · subst e1
        simp only [if_true, reduceCtorEq, false_iff, not_exists, not_and]
        intro e' h he'
        exact hown _ _ he' h
      · simp only [e1, if_false]
        rw [hJ.slot m s]
        constructor
        · rintro ⟨e', h, hm⟩; exact ⟨e', (hoth s e' (by rw [hm]; exact e1)).2 h, hm⟩
        · rintro ⟨e', h, hm⟩; exact ⟨e', (hoth s e' (by rw [hm]; exact e1)).1 h, hm⟩
    · exact hJ.nodup
    · intro k
      have := hJ.enq k
      simp only [World.fire, upd_list, upd_taken, upd_node]
      rw [this]
      split <;> rfl
    · exact hJ.gone
    · intro k hk
      by_cases e1 : k = e.node
      · subst e1
        simp only [put, if_true] at hk
        rcases hx with hx | ⟨d, _, hx⟩
        · rw [hx] at hk
          have := (hJ.absent _ hk).1
          rw [hsl] at this; cases this
        · rw [hx] at hk; cases hk
      · simp only [put, e1, if_false] at hk
        simp only [World.fire, upd_node, e1, if_false]
        exact hJ.absent k hk
    · intro k hk
      by_cases e1 : k = e.node
      · subst e1
        simp only [put, if_true] at hk
        rcases hx with hx | ⟨d, _, hx⟩
        · rw [hx] at hk
          simp only [World.fire, upd_node, if_true]
          exact ⟨(hJ.dropped _ hk).1, by simp⟩
        · rw [hx] at hk; cases hk
      · simp only [put, e1, if_false] at hk
        simp only [World.fire, upd_node, e1, if_false]
        exact hJ.dropped k hk
    · intro k d s f hk
      by_cases e1 : k = e.node
      · subst e1
        simp only [put, if_true] at hk
        obtain ⟨g, hg1, hg2⟩ := hst d s f hk
        have base : w.held e.node = true ∧ (w.node e.node).due = some d ∧ (s = true ↔ e.node ∉ w.list ++ w.taken) ∧
            (f = true → s = true) := by
          rcases hx with hx | ⟨d', hσ, hx⟩
          · rw [hx] at hk
            obtain ⟨a1, a2, g', a3, a4, a5, _, _⟩ := hJ.live _ d s f hk
            exact ⟨a1, a2, a4, a5⟩
          · rw [hx] at hk; cases hk
            obtain ⟨a1, a2, g', a3, a4, a5, _, _⟩ := hJ.live _ _ _ _ hσ
            exact ⟨a1, a2, a4, fun _ => rfl⟩
        simp only [World.fire, upd_node, if_true]
        refine ⟨base.1, base.2.1, g, hg1, base.2.2.1, base.2.2.2, ?_, ?_⟩
        · intro j e' hj he'
          exact absurd hj (hown j e' he')
        · intro hs hf
          rw [hg2 hs] at hf; cases hf
      · simp only [put, e1, if_false] at hk
        obtain ⟨b1, b2, g, b3, b4, b5, b6, b7⟩ := hJ.live k d s f hk
        simp only [World.fire, upd_node, e1, if_false]
        refine ⟨b1, b2, g, b3, b4, b5, ?_, ?_⟩
        · intro j e' hj he'
          exact b6 j e' ((hoth j e' (by rw [he']; exact e1)).1 hj) he'
        · intro h1' h2'
          obtain ⟨j, hj⟩ := b7 h1' h2'
          exact ⟨j, (hoth j _ (by exact e1)).2 hj⟩
    · intro k d s f hk
      by_cases e1 : k = e.node
      · subst e1
        simp only [put, if_true] at hk
        rcases hx with hx | ⟨d', hσ, hx⟩
        · rw [hx] at hk; exact hJ.whn _ _ _ _ hk
        · rw [hx] at hk; cases hk; exact hJ.whn _ _ _ _ hσ
      · simp only [put, e1, if_false] at hk
        exact hJ.whn k d s f hk
  have same : put σ e.node (σ e.node) = σ := by
    funext k
    by_cases e1 : k = e.node
    · subst e1; simp [put]
    · simp [put, e1]
  rcases hσ : σ e.node with _ | ⟨d, s, f⟩ | _
  · have := common (σ e.node) (Or.inl rfl) (by intro d s f h; rw [hσ] at h; cases h)
    rw [same] at this
    exact ⟨σ, this, fun _ _ _ => rfl⟩
  · obtain ⟨a1, a2, g, a3, a4, a5, a6, a7⟩ := hJ.live _ d s f hσ
    have hent := a6 k0 e he rfl
    cases s with
    | true =>
      simp only [if_true] at hent
      obtain ⟨h1, h2⟩ := hent
      subst h2
      have hgen : e.gen = g := by rw [h1]
      have hdue : e.due = d := by rw [h1]
      refine ⟨put σ e.node (.live d true true), common _ (Or.inr ⟨d, hσ, rfl⟩) ?_, ?_⟩
      · intro d' s' f' h
        cases h
        refine ⟨g, ?_, fun _ => rfl⟩
        rw [a3, hgen]
        simp
      · intro now hnow n
        by_cases e1 : n = e.node
        · subst e1
          simp only [put, if_true, hσ, hit]
          rw [hdue] at hnow
          simp [hnow]
        · simp [put, e1]
    | false =>
      simp only [Bool.false_eq_true, if_false] at hent
      have hf : f = false := by
        cases f
        · rfl
        · exact absurd (a5 rfl) (by simp)
      subst hf
      have := common (σ e.node) (Or.inl rfl) (by
        intro d' s' f' h
        rw [hσ] at h
        cases h
        refine ⟨g, ?_, by simp⟩
        rw [a3]
        rw [if_neg (by simp; omega)])
      rw [same] at this
      exact ⟨σ, this, fun _ _ _ => rfl⟩
  · have := common (σ e.node) (Or.inl rfl) (by intro d s f h; rw [hσ] at h; cases h)
    rw [same] at this
    exact ⟨σ, this, fun _ _ _ => rfl⟩

theorem advanceLoop_J (now : Nat) : ∀ (fuel : Nat) {w : World} {σ : Nat → Delay}, J w σ → w.heap.items.length < fuel →
    ∃ w', World.advanceLoop fuel w now = .ok w' ∧ J w' (fun n => hit now (σ n)) ∧ w'.taken = w.taken ∧ w'.list = w.list ∧
      w'.held = w.held ∧ w'.when_ = w.when_ := by
  intro fuel
  induction fuel with
  | zero => intro w σ _ h; omega
  | succ fuel ih =>
    intro w σ hJ hlen
    -- when nothing is due the delays do not change
    have done : (∀ k e, contents w.heap k = some e → ¬ e.due ≤ now) → (fun n => hit now (σ n)) = σ := by
      intro hno
      funext n
      rcases h : σ n with _ | ⟨d, s, f⟩ | _
      · rfl
      · obtain ⟨_, _, g, _, _, _, _, a7⟩ := hJ.live n d s f h
        cases s
        · simp [hit]
        · cases f
          · obtain ⟨k, hk⟩ := a7 rfl rfl
            have := hno k _ hk
            simp only [hit]
            simp at this
            simp [this]
          · simp [hit]
      · rfl
    rcases pop_spec le_total hJ.heap with ⟨h1, h2, h3⟩ | ⟨s, e, h', h1, h2, h3, h4, h5, h6⟩
    · refine ⟨w, by rw [World.advanceLoop, h1], ?_, rfl, rfl, rfl, rfl⟩
      rw [done (fun k e hk => by rw [h3 k] at hk; cases hk)]
      exact hJ
    · by_cases hdue : e.due ≤ now
      · obtain ⟨σ', hJ', hσ'⟩ := fire_J hJ h4.1 h3 h5
        obtain ⟨w', e1, e2, e3, e4, e5, e6⟩ := ih hJ' (by show h'.items.length < fuel; omega)
        refine ⟨w', ?_, ?_, e3, e4, e5, e6⟩
        · rw [World.advanceLoop, h1]
          dsimp only
          rw [if_pos hdue, h2]
          exact e1
        · have : (fun n => hit now (σ' n)) = fun n => hit now (σ n) := funext (hσ' now hdue)
          rw [← this]
          exact e2
      · refine ⟨w, ?_, ?_, rfl, rfl, rfl, rfl⟩
        · rw [World.advanceLoop, h1]
          dsimp only
          rw [if_neg hdue]
        · rw [done]
          · exact hJ
          · intro k e' hk hle
            have := h4.2 k e' hk
            simp only [HeapTimer.le, decide_eq_true_eq] at this
            exact hdue (Nat.le_trans this hle)

theorem advance_J {w : World} {σ : Nat → Delay} (hJ : J w σ) (now : Nat) :
    ∃ w', w.advance now = .ok w' ∧ J w' (fun n => hit now (σ n)) ∧ w'.taken = w.taken ∧ w'.list = w.list ∧ w'.held = w.held ∧
      w'.when_ = w.when_ := by
  unfold World.advance
  rw [hJ.gone]
  exact advanceLoop_J now _ hJ (Nat.lt_succ_self _)

/-! ## Sequences of calls -/

theorem push_taken (w : World) (n : Nat) : (w.push n).taken = w.taken := by unfold World.push; split <;> rfl

theorem step_J {w : World} {σ : Nat → Delay} (hJ : J w σ) (ht : w.taken = []) {e : Ev} (ha : Allowed σ e) :
    ∃ w', w.step e = .ok w' ∧ J w' (fun n => (σ n).step n e) ∧ w'.taken = [] := by
  cases e with
  | create n due =>
    have h : σ n = .absent := ha
    refine ⟨_, rfl, ?_, ?_⟩
    · have : (fun m => (σ m).step m (.create n due)) = put σ n (.live due false false) := by
        funext m
        by_cases e : m = n
        · subst e; simp [put, h, Delay.step]
        · simp only [put, e, if_false]
          cases σ m <;> simp [Delay.step, fun e' : n = m => e e'.symm]
          intro e'; exact absurd e'.symm e
      rw [this]
      exact create_J hJ h
    · unfold World.create
      rw [hJ.gone]
      simp [push_taken, ht]
  | reset n due =>
    obtain ⟨d, s, f, h⟩ := ha
    refine ⟨_, rfl, ?_, ?_⟩
    · have : (fun m => (σ m).step m (.reset n due)) = put σ n (.live due false false) := by
        funext m
        by_cases e : m = n
        · subst e; simp [put, h, Delay.step]
        · simp only [put, e, if_false]
          cases σ m
          · rfl
          · simp only [Delay.step]; rw [if_neg (fun e' => e e'.symm)]
          · rfl
      rw [this]
      exact reset_J hJ h
    · unfold World.reset
      dsimp only
      split
      · split
        · exact ht
        · split
          · exact ht
          · rename_i hc
            rw [push_taken]
            unfold World.cas at hc
            split at hc
            · cases hc
            · injection hc with hc; subst hc; exact ht
      · exact ht
  | dropDelay n =>
    obtain ⟨d, s, f, h⟩ := ha
    refine ⟨_, rfl, ?_, ?_⟩
    · have : (fun m => (σ m).step m (.dropDelay n)) = put σ n .dropped := by
        funext m
        by_cases e : m = n
        · subst e; simp [put, h, Delay.step]
        · simp only [put, e, if_false]
          cases σ m
          · rfl
          · simp only [Delay.step]; rw [if_neg (fun e' => e e'.symm)]
          · rfl
      rw [this]
      exact dropDelay_J hJ h
    · unfold World.dropDelay
      split
      · split
        · exact ht
        · rw [push_taken]; exact ht
      · exact ht
  | pollTimer =>
    obtain ⟨w', e1, e2, e3, _⟩ := pollTimer_J hJ ht
    refine ⟨w', e1, ?_, e3⟩
    have : (fun m => (σ m).step m .pollTimer) = fun n => see (σ n) := by
      funext m; cases σ m <;> rfl
    rw [this]; exact e2
  | advance now =>
    obtain ⟨w', e1, e2, e3, _⟩ := advance_J hJ now
    refine ⟨w', e1, ?_, e3.trans ht⟩
    have : (fun m => (σ m).step m (.advance now)) = fun n => hit now (σ n) := by
      funext m; cases σ m <;> rfl
    rw [this]; exact e2
  | dropTimer => exact absurd ha (by simp [Allowed])

theorem run_append (w : World) : ∀ (a b : List Ev), w.run (a ++ b) = (do
    let v ← w.run a
    v.run b) := by
  intro a
  induction a generalizing w with
  | nil => intro b; rfl
  | cons e a ih =>
    intro b
    simp only [List.cons_append, World.run]
    rcases w.step e with v | _ | _
    · simp only [Outcome.bind_ok]; exact ih v b
    · rfl
    · rfl

theorem delay_append (n : Nat) (a : List Ev) (e : Ev) : delay n (a ++ [e]) = (delay n a).step n e := by
  simp [delay, List.foldl_append]

theorem run_J {l : List Ev} (h : Program l) : ∃ w, World.new.run l = .ok w ∧ J w (fun n => delay n l) ∧ w.taken = [] := by
  have : ∀ m, m ≤ l.length → ∃ w, World.new.run (l.take m) = .ok w ∧ J w (fun n => delay n (l.take m)) ∧ w.taken = [] := by
    intro m
    induction m with
    | zero => intro _; exact ⟨World.new, rfl, by simpa [delay] using J.new, rfl⟩
    | succ m ih =>
      intro hm
      obtain ⟨w, h1, h2, h3⟩ := ih (by omega)
      have hlt : m < l.length := by omega
      have hl : l = l.take m ++ l[m] :: l.drop (m + 1) := by
        rw [← List.drop_eq_getElem_cons hlt, List.take_append_drop]
      obtain ⟨w', e1, e2, e3⟩ := step_J h2 h3 (h _ _ _ hl)
      refine ⟨w', ?_, ?_, e3⟩
      · rw [List.take_succ_eq_append_getElem hlt, run_append, h1]
        simp [World.run, e1]
      · have : (fun n => delay n (l.take (m + 1))) = fun n => (delay n (l.take m)).step n l[m] := by
          funext n
          rw [List.take_succ_eq_append_getElem hlt, delay_append]
        rw [this]; exact e2
  have := this l.length (Nat.le_refl _)
  simpa using this

theorem pollDelay_live {w : World} {σ : Nat → Delay} (hJ : J w σ) {n d : Nat} {s f : Bool} (h : σ n = .live d s f) :
    w.pollDelay n = if f then .readyOk else .pending := by
  obtain ⟨a1, _, g, a3, _⟩ := hJ.live n d s f h
  unfold World.pollDelay
  rw [if_pos a1, a3]
  cases f
  · rw [if_neg (by simp; omega), if_neg (by simp; omega)]; rfl
  · rw [if_pos (by simp; omega)]; rfl

/-! ## What the delay on its own does -/

theorem step_untouched {n d : Nat} {s f : Bool} {e : Ev} (h : ¬ Touches n e) :
    ∃ s' f', Delay.step n (.live d s f) e = .live d s' f' := by
  cases e with
  | create m due => exact ⟨s, f, rfl⟩
  | reset m due => exact ⟨s, f, by simp only [Delay.step]; rw [if_neg (show ¬ m = n from h)]⟩
  | dropDelay m => exact ⟨s, f, by simp only [Delay.step]; rw [if_neg (show ¬ m = n from h)]⟩
  | pollTimer => exact ⟨true, f, rfl⟩
  | advance now => exact ⟨s, _, rfl⟩
  | dropTimer => exact ⟨s, f, rfl⟩

/-- The list has an advance to `d` or beyond. -/
def Adv (d : Nat) (l : List Ev) : Prop := ∃ b c now, l = b ++ .advance now :: c ∧ d ≤ now

theorem fold_untouched {n d : Nat} : ∀ (l : List Ev) (s f : Bool), (∀ e, e ∈ l → ¬ Touches n e) →
    ∃ s' f', l.foldl (Delay.step n) (.live d s f) = .live d s' f' ∧
      (f' = true ↔ f = true ∨ (s = true ∧ Adv d l) ∨ Reached d l)
  | [], s, f, _ => ⟨s, f, rfl, by
      constructor
      · exact Or.inl
      · rintro (h | ⟨_, b, c, now, h, _⟩ | ⟨a, b, c, now, h, _⟩)
        · exact h
        · simp at h
        · simp at h⟩
  | e :: l, s, f, h => by
    have hl : ∀ e, e ∈ l → ¬ Touches n e := fun e he => h e (List.mem_cons_of_mem _ he)
    have he := h e List.mem_cons_self
    have advc : Adv d (e :: l) ↔ (∃ now, e = .advance now ∧ d ≤ now) ∨ Adv d l := by
      constructor
      · rintro ⟨b, c, now, hb, hd⟩
        cases b with
        | nil => simp at hb; exact Or.inl ⟨now, hb.1, hd⟩
        | cons x b => simp at hb; exact Or.inr ⟨b, c, now, hb.2, hd⟩
      · rintro (⟨now, rfl, hd⟩ | ⟨b, c, now, rfl, hd⟩)
        · exact ⟨[], l, now, rfl, hd⟩
        · exact ⟨e :: b, c, now, rfl, hd⟩
    have reac : Reached d (e :: l) ↔ (e = .pollTimer ∧ Adv d l) ∨ Reached d l := by
      constructor
      · rintro ⟨a, b, c, now, hb, hd⟩
        cases a with
        | nil => simp at hb; exact Or.inl ⟨hb.1, b, c, now, hb.2, hd⟩
        | cons x a => simp at hb; exact Or.inr ⟨a, b, c, now, hb.2, hd⟩
      · rintro (⟨rfl, b, c, now, rfl, hd⟩ | ⟨a, b, c, now, rfl, hd⟩)
        · exact ⟨[], b, c, now, rfl, hd⟩
        · exact ⟨e :: a, b, c, now, rfl, hd⟩
    rw [advc, reac]
    simp only [List.foldl_cons]
    cases e with
    | create m due =>
      obtain ⟨s', f', h1, h2⟩ := fold_untouched (d := d) l s f hl
      exact ⟨s', f', h1, by rw [h2]; simp⟩
    | reset m due =>
      obtain ⟨s', f', h1, h2⟩ := fold_untouched (d := d) l s f hl
      refine ⟨s', f', ?_, by rw [h2]; simp⟩
      simp only [Delay.step]; rw [if_neg (show ¬ m = n from he)]; exact h1
    | dropDelay m =>
      obtain ⟨s', f', h1, h2⟩ := fold_untouched (d := d) l s f hl
      refine ⟨s', f', ?_, by rw [h2]; simp⟩
      simp only [Delay.step]; rw [if_neg (show ¬ m = n from he)]; exact h1
    | pollTimer =>
      obtain ⟨s', f', h1, h2⟩ := fold_untouched (d := d) l true f hl
      refine ⟨s', f', h1, ?_⟩
      rw [h2]
      simp only [true_and, reduceCtorEq, false_and, exists_false, false_or]
      constructor
      · rintro (h | h | h)
        · exact Or.inl h
        · exact Or.inr (Or.inr (Or.inl h))
        · exact Or.inr (Or.inr (Or.inr h))
      · rintro (h | ⟨_, h⟩ | h | h)
        · exact Or.inl h
        · exact Or.inr (Or.inl h)
        · exact Or.inr (Or.inl h)
        · exact Or.inr (Or.inr h)
    | advance now =>
      obtain ⟨s', f', h1, h2⟩ := fold_untouched (d := d) l s (f || (s && decide (d ≤ now))) hl
      refine ⟨s', f', h1, ?_⟩
      rw [h2]
      simp only [Bool.or_eq_true, Bool.and_eq_true, decide_eq_true_eq, Ev.advance.injEq, reduceCtorEq, false_and, false_or,
        exists_eq_left']
      constructor
      · rintro ((h | h) | h | h)
        · exact Or.inl h
        · exact Or.inr (Or.inl ⟨h.1, Or.inl h.2⟩)
        · exact Or.inr (Or.inl ⟨h.1, Or.inr h.2⟩)
        · exact Or.inr (Or.inr h)
      · rintro (h | ⟨h, h' | h'⟩ | h)
        · exact Or.inl (Or.inl h)
        · exact Or.inl (Or.inr ⟨h, h'⟩)
        · exact Or.inr (Or.inl ⟨h, h'⟩)
        · exact Or.inr (Or.inr h)
    | dropTimer =>
      obtain ⟨s', f', h1, h2⟩ := fold_untouched (d := d) l s f hl
      exact ⟨s', f', h1, by rw [h2]; simp⟩

end Timer
end Verif
