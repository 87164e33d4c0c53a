import Verif.Proofs.EvalExt
import Verif.Proofs.SType
import Verif.Spec.Printer

set_option linter.unusedSimpArgs false
set_option linter.unusedVariables false

/-!
# The printer rebuilds the expression it is given
-/

namespace Verif
open Spec Expr
variable {G B T α β : Type}

theorem constBools?_eq : ∀ l : List (Expr G B), constBools? l = boolValues l
  | [] => rfl
  | e :: l => by
    unfold constBools?
    rw [constBools?_eq l]
    cases e with
    | const c =>
      obtain ⟨t, v⟩ := c
      cases v with
      | bool b => simp only [constBool?, Literal.boolOf, boolValues]; cases boolValues l <;> rfl
      | _ => simp only [constBool?, Literal.boolOf, boolValues]; rfl
    | _ => simp only [constBool?, boolValues]; rfl

/-- Collapsing does not touch a list of Boolean constants. -/
theorem boolValues_collapse : ∀ l : List (Expr G B), boolValues (collapseAll l) = boolValues l
  | [] => rfl
  | e :: l => by
    simp only [collapseAll]
    cases e with
    | const c =>
      obtain ⟨t, v⟩ := c
      simp only [collapse]
      cases v with
      | bool b => simp only [boolValues]; rw [boolValues_collapse l]
      | _ => simp only [boolValues]
    | coll t items =>
      simp only [collapse]
      split <;> simp only [boolValues]
    | _ => simp only [collapse, boolValues]

mutual
theorem tpe_collapse : ∀ e : Expr G B, (collapse e).tpe = e.tpe
  | .coll t items => by
    simp only [collapse]
    split
    · simp only [tpe]
    · simp only [tpe]
  | .op o args => by simp only [collapse, tpe]; rw [tpes_collapse args]
  | .bin k l r => by simp only [collapse, tpe]; rw [tpe_collapse l]
  | .cast u e t => by simp only [collapse, tpe]
  | .extractReg e r t => by simp only [collapse, tpe]
  | .selectField e i => by simp only [collapse, tpe]; rw [tpe_collapse e]
  | .byIndex e i d => by simp only [collapse, tpe]; rw [tpe_collapse e]
  | .createAvl a b c d => by simp only [collapse, tpe]
  | .tuple items => by simp only [collapse, tpe]; rw [tpes_collapse items]
  | .sigma u items => by simp only [collapse, tpe]
  | .func args body => by simp only [collapse, tpe]; rw [tpe_collapse body]
  | .apply e args => by simp only [collapse, tpe]; rw [tpe_collapse e]
  | .block items r => by simp only [collapse, tpe]; rw [tpe_collapse r]
  | .valDef id rhs => by simp only [collapse, tpe]; rw [tpe_collapse rhs]
  | .method ti mi sig obj args => by simp only [collapse, tpe]
  | .property ti mi sig obj => by simp only [collapse, tpe]
  | .deserReg r t d => by simp only [collapse]
  | .const c => by simp only [collapse]
  | .placeholder id t => by simp only [collapse]
  | .valUse id t => by simp only [collapse]
  | .bools l => by simp only [collapse]
  | .getVar id t => by simp only [collapse]
  | .deserCtx t id => by simp only [collapse]
theorem tpes_collapse : ∀ l : List (Expr G B), tpes (collapseAll l) = tpes l
  | [] => by simp only [collapseAll]
  | e :: l => by simp only [collapseAll, tpes]; rw [tpe_collapse e, tpes_collapse l]
end

theorem orPanic_eq_ok {c : Bool} {a b : α} : orPanic c a = .ok b ↔ c = true ∧ a = b := by
  unfold orPanic; split <;> simp_all

theorem beq_bool {t : SType} : t.beq .bool = true ↔ t = .bool := SType.beq_iff _ _

theorem newColl_ok {t : SType} {items : List (Expr G B)} {e : Expr G B} (h : newColl t (collapseAll items) = .ok e) :
    e = collapse (.coll t items) := by
  unfold newColl at h
  split at h
  · split at h
    · next hb =>
      have := beq_bool.1 hb
      subst this
      rw [constBools?_eq, boolValues_collapse] at h
      simp only [collapse]
      split at h <;> cases h
      · next l hl => simp only [hl]
      · next hl => simp only [hl]
    · next hb =>
      cases h
      simp only [collapse]
      split
      · exact absurd (beq_bool.2 rfl) hb
      · rfl
  · cases h

mutual
theorem print_eq (m : Mode) : ∀ (e : Expr G B) (i : BitVec 64) r, print m e i = .ok r → r.1 = collapse e
  | .op o args, i, r, h => by
    simp only [print] at h
    obtain ⟨a, ha, h⟩ := Outcome.bind_eq_ok.1 h
    obtain ⟨j, hj, h⟩ := Outcome.bind_eq_ok.1 h
    obtain ⟨e, he, h⟩ := Outcome.bind_eq_ok.1 h
    cases h
    have := (orPanic_eq_ok.1 he).2
    subst this
    simp only [collapse]
    rw [printAll_eq m _ _ _ ha]
  | .bin k l r, i, x, h => by
    simp only [print] at h
    obtain ⟨a, ha, h⟩ := Outcome.bind_eq_ok.1 h
    obtain ⟨b, hb, h⟩ := Outcome.bind_eq_ok.1 h
    cases h
    simp only [collapse]
    rw [print_eq m _ _ _ ha, print_eq m _ _ _ hb]
  | .cast u e t, i, r, h => by
    simp only [print] at h
    obtain ⟨a, ha, h⟩ := Outcome.bind_eq_ok.1 h
    obtain ⟨b, hb, h⟩ := Outcome.bind_eq_ok.1 h
    cases h
    simp only [collapse]
    rw [← (orPanic_eq_ok.1 hb).2, print_eq m _ _ _ ha]
  | .extractReg e reg t, i, r, h => by
    simp only [print] at h
    obtain ⟨a, ha, h⟩ := Outcome.bind_eq_ok.1 h
    obtain ⟨b, hb, h⟩ := Outcome.bind_eq_ok.1 h
    cases h
    simp only [collapse]
    rw [← (orPanic_eq_ok.1 hb).2, print_eq m _ _ _ ha]
  | .selectField e x, i, r, h => by
    simp only [print] at h
    obtain ⟨a, ha, h⟩ := Outcome.bind_eq_ok.1 h
    obtain ⟨b, hb, h⟩ := Outcome.bind_eq_ok.1 h
    cases h
    simp only [collapse]
    rw [← (orPanic_eq_ok.1 hb).2, print_eq m _ _ _ ha]
  | .byIndex e x d, i, r, h => by
    simp only [print] at h
    obtain ⟨a, ha, h⟩ := Outcome.bind_eq_ok.1 h
    obtain ⟨b, hb, h⟩ := Outcome.bind_eq_ok.1 h
    obtain ⟨c, hc, h⟩ := Outcome.bind_eq_ok.1 h
    cases h
    simp only [collapse]
    rw [← (orPanic_eq_ok.1 hc).2, print_eq m _ _ _ ha, print_eq m _ _ _ hb]
  | .createAvl f g k v, i, r, h => by
    simp only [print] at h
    obtain ⟨a, ha, h⟩ := Outcome.bind_eq_ok.1 h
    obtain ⟨b, hb, h⟩ := Outcome.bind_eq_ok.1 h
    cases h
    simp only [collapse]
    rw [print_eq m _ _ _ ha, print_eq m _ _ _ hb]
  | .coll t items, i, r, h => by
    simp only [print] at h
    obtain ⟨a, ha, h⟩ := Outcome.bind_eq_ok.1 h
    rw [printAll_eq m _ _ _ ha] at h
    split at h
    · next e he => cases h; exact newColl_ok he
    · cases h
  | .tuple items, i, r, h => by
    simp only [print] at h
    obtain ⟨a, ha, h⟩ := Outcome.bind_eq_ok.1 h
    cases h
    simp only [collapse]
    rw [printAll_eq m _ _ _ ha]
  | .sigma isAnd items, i, r, h => by
    simp only [print] at h
    obtain ⟨a, ha, h⟩ := Outcome.bind_eq_ok.1 h
    obtain ⟨b, hb, h⟩ := Outcome.bind_eq_ok.1 h
    cases h
    simp only [collapse]
    rw [printItems_eq m _ _ _ ha]
  | .func args body, i, r, h => by
    simp only [print] at h
    obtain ⟨i1, h1, h⟩ := Outcome.bind_eq_ok.1 h
    obtain ⟨i2, h2, h⟩ := Outcome.bind_eq_ok.1 h
    obtain ⟨_, _, h⟩ := Outcome.bind_eq_ok.1 h
    obtain ⟨i3, h3, h⟩ := Outcome.bind_eq_ok.1 h
    obtain ⟨_, _, h⟩ := Outcome.bind_eq_ok.1 h
    obtain ⟨a, ha, h⟩ := Outcome.bind_eq_ok.1 h
    obtain ⟨_, _, h⟩ := Outcome.bind_eq_ok.1 h
    obtain ⟨_, _, h⟩ := Outcome.bind_eq_ok.1 h
    obtain ⟨_, _, h⟩ := Outcome.bind_eq_ok.1 h
    cases h
    simp only [collapse]
    rw [print_eq m _ _ _ ha]
  | .apply f args, i, r, h => by
    simp only [print] at h
    obtain ⟨a, ha, h⟩ := Outcome.bind_eq_ok.1 h
    obtain ⟨b, hb, h⟩ := Outcome.bind_eq_ok.1 h
    obtain ⟨c, hc, h⟩ := Outcome.bind_eq_ok.1 h
    cases h
    simp only [collapse]
    rw [← (orPanic_eq_ok.1 hc).2, print_eq m _ _ _ ha, printAll_eq m _ _ _ hb]
  | .block items r, i, x, h => by
    simp only [print] at h
    obtain ⟨i1, h1, h⟩ := Outcome.bind_eq_ok.1 h
    obtain ⟨a, ha, h⟩ := Outcome.bind_eq_ok.1 h
    obtain ⟨_, _, h⟩ := Outcome.bind_eq_ok.1 h
    obtain ⟨b, hb, h⟩ := Outcome.bind_eq_ok.1 h
    obtain ⟨_, _, h⟩ := Outcome.bind_eq_ok.1 h
    obtain ⟨_, _, h⟩ := Outcome.bind_eq_ok.1 h
    cases h
    simp only [collapse]
    rw [printLines_eq m _ _ _ ha, print_eq m _ _ _ hb]
  | .valDef id rhs, i, r, h => by
    simp only [print] at h
    obtain ⟨a, ha, h⟩ := Outcome.bind_eq_ok.1 h
    cases h
    simp only [collapse]
    rw [print_eq m _ _ _ ha]
  | .method ti mi sig obj args, i, r, h => by
    simp only [print] at h
    obtain ⟨a, ha, h⟩ := Outcome.bind_eq_ok.1 h
    obtain ⟨b, hb, h⟩ := Outcome.bind_eq_ok.1 h
    cases h
    simp only [collapse]
    rw [print_eq m _ _ _ ha, printAll_eq m _ _ _ hb]
  | .property ti mi sig obj, i, r, h => by
    simp only [print] at h
    obtain ⟨a, ha, h⟩ := Outcome.bind_eq_ok.1 h
    cases h
    simp only [collapse]
    rw [print_eq m _ _ _ ha]
  | .const c, i, r, h => by simp only [print] at h; cases h; simp only [collapse]
  | .placeholder id t, i, r, h => by simp only [print] at h; cases h; simp only [collapse]
  | .valUse id t, i, r, h => by simp only [print] at h; cases h; simp only [collapse]
  | .bools l, i, r, h => by simp only [print] at h; cases h; simp only [collapse]
  | .getVar id t, i, r, h => by simp only [print] at h; cases h; simp only [collapse]
  | .deserCtx t id, i, r, h => by simp only [print] at h; cases h; simp only [collapse]
  | .deserReg reg t d, i, r, h => by simp only [print] at h; cases h; simp only [collapse]
theorem printAll_eq (m : Mode) : ∀ (l : List (Expr G B)) (i : BitVec 64) r, printAll m l i = .ok r → r.1 = collapseAll l
  | [], i, r, h => by simp only [printAll] at h; cases h; simp only [collapseAll]
  | e :: l, i, r, h => by
    simp only [printAll] at h
    obtain ⟨a, ha, h⟩ := Outcome.bind_eq_ok.1 h
    obtain ⟨b, hb, h⟩ := Outcome.bind_eq_ok.1 h
    cases h
    simp only [collapseAll]
    rw [print_eq m _ _ _ ha, printAll_eq m _ _ _ hb]
theorem printLines_eq (m : Mode) : ∀ (l : List (Expr G B)) (i : BitVec 64) r, printLines m l i = .ok r → r.1 = collapseAll l
  | [], i, r, h => by simp only [printLines] at h; cases h; simp only [collapseAll]
  | e :: l, i, r, h => by
    simp only [printLines] at h
    obtain ⟨_, _, h⟩ := Outcome.bind_eq_ok.1 h
    obtain ⟨a, ha, h⟩ := Outcome.bind_eq_ok.1 h
    obtain ⟨b, hb, h⟩ := Outcome.bind_eq_ok.1 h
    cases h
    simp only [collapseAll]
    rw [print_eq m _ _ _ ha, printLines_eq m _ _ _ hb]
theorem printItems_eq (m : Mode) : ∀ (l : List (Expr G B)) (i : BitVec 64) r, printItems m l i = .ok r → r.1 = collapseAll l
  | [], i, r, h => by simp only [printItems] at h; cases h; simp only [collapseAll]
  | e :: l, i, r, h => by
    simp only [printItems] at h
    obtain ⟨_, _, h⟩ := Outcome.bind_eq_ok.1 h
    obtain ⟨_, _, h⟩ := Outcome.bind_eq_ok.1 h
    obtain ⟨a, ha, h⟩ := Outcome.bind_eq_ok.1 h
    obtain ⟨_, _, h⟩ := Outcome.bind_eq_ok.1 h
    obtain ⟨b, hb, h⟩ := Outcome.bind_eq_ok.1 h
    cases h
    simp only [collapseAll]
    rw [print_eq m _ _ _ ha, printItems_eq m _ _ _ hb]
end

/-! ## When printing succeeds -/

theorem inc_ok (m : Mode) {i : BitVec 64} (h : i.toNat + 2 < 2 ^ 64) :
    ∃ j, incIndent m i = .ok j ∧ j.toNat = i.toNat + 2 := by
  refine ⟨i + indentStep, ?_, ?_⟩
  · unfold incIndent; rw [if_pos h]
  · rw [BitVec.toNat_add]
    show (i.toNat + 2) % 2 ^ 64 = _
    exact Nat.mod_eq_of_lt h

theorem dec_ok (m : Mode) {i : BitVec 64} (h : 2 ≤ i.toNat) : ∃ j, decIndent m i = .ok j ∧ j.toNat = i.toNat - 2 := by
  refine ⟨i - indentStep, ?_, ?_⟩
  · unfold decIndent; rw [if_pos h]
  · have := i.isLt
    have h2 : indentStep.toNat = 2 := rfl
    rw [BitVec.toNat_sub]
    omega

theorem indent_ok {i : BitVec 64} (h : i.toNat < 2 ^ 63) : printIndent i = .ok () := by unfold printIndent; rw [if_pos h]

theorem Spec.Shown.here {N : Expr G B → Prop} {e : Expr G B} (h : Shown N e) : N e := by cases h; assumption
theorem Spec.Shown.child {N : Expr G B → Prop} {e c : Expr G B} (h : Shown N e) (hc : c ∈ visited e) : Shown N c := by
  cases h with | mk _ b => exact b c hc

theorem shown_nil {N : Expr G B → Prop} : ∀ c ∈ ([] : List (Expr G B)), Shown N c := by simp
theorem shown_cons {N : Expr G B → Prop} {e : Expr G B} {l : List (Expr G B)} (h : Shown N e) (h' : ∀ c ∈ l, Shown N c) :
    ∀ c ∈ e :: l, Shown N c := by
  intro c hc
  rcases List.mem_cons.1 hc with rfl | hc
  · exact h
  · exact h' c hc

/-- The conditions under which a node can be printed. -/
def NodeOk (e : Expr G B) : Prop := ReadsAgain e ∧ BuildsAgain e ∧ OwnFunction e

theorem rebuildOk_true {o : SOp} {args : List (Expr G B)} (h : NodeOk (.op o args)) : rebuildOk o (tpes args) = true := by
  obtain ⟨h1, h2, h3⟩ := h
  simp only [ReadsAgain] at h1
  unfold rebuildOk
  split
  · match args with
    | [a, b, c] =>
      simp only [BuildsAgain] at h2
      obtain ⟨t, r, p, ht, hf⟩ := h2
      simp only [tpes, foldOk, ht, hf]
      exact (SType.beqList_iff _ (fun c _ b => SType.beq_iff c b) _).2 rfl
    | [] => rfl
    | [a] => rfl
    | [a, b] => rfl
    | a :: b :: c :: d :: l => rfl
  all_goals first | exact h1 (by simp) | rfl

theorem upcastOk_true {up : Bool} {e : Expr G B} {t : SType} (h : NodeOk (.cast up e t)) : (!up || upcastOk e.tpe t) = true := by
  cases up with
  | false => rfl
  | true =>
    have := h.2.1
    simp only [BuildsAgain] at this
    simp [upcastOk, this.1, this.2]

theorem tpes_eq_map : ∀ l : List (Expr G B), tpes l = l.map tpe
  | [] => rfl
  | e :: l => by simp only [tpes, List.map_cons]; rw [tpes_eq_map l]

theorem newColl_collapse {t : SType} {items : List (Expr G B)} (h : NodeOk (.coll t items)) :
    newColl t (collapseAll items) = .ok (collapse (.coll t items)) := by
  have h' : ∀ x ∈ items, x.tpe = t := h.2.1
  have : ∃ e, newColl t (collapseAll items) = .ok e := by
    unfold newColl
    rw [if_pos]
    · split
      · split
        · exact ⟨_, rfl⟩
        · exact ⟨_, rfl⟩
      · exact ⟨_, rfl⟩
    · rw [tpes_collapse, tpes_eq_map, List.all_map, List.all_eq_true]
      intro x hx
      exact (SType.beq_iff _ _).2 (h' x hx)
  obtain ⟨e, he⟩ := this
  rw [he, newColl_ok he]

/-- How far the indentation has moved at least. -/
def rise (e : Expr G B) : Nat := if isFunc e then 2 else 0

/-- The same for a list. -/
def riseAll : List (Expr G B) → Nat
  | [] => 0
  | e :: l => rise e + riseAll l

theorem riseAll_pos : ∀ {l : List (Expr G B)}, (∃ f ∈ l, isFunc f = true) → 2 ≤ riseAll l
  | [], h => by obtain ⟨f, hf, _⟩ := h; cases hf
  | e :: l, h => by
    obtain ⟨f, hf, h⟩ := h
    simp only [riseAll]
    rcases List.mem_cons.1 hf with rfl | hf
    · simp only [rise, h, if_true]; omega
    · have := riseAll_pos ⟨f, hf, h⟩; omega

/-- Printing succeeds and leaves the indentation at least where it was. -/
def Prints (m : Mode) (e : Expr G B) : Prop :=
  ∀ i : BitVec 64, i.toNat + 6 * nodes e < 2 ^ 63 →
    ∃ j, print m e i = .ok (collapse e, j) ∧ i.toNat + rise e ≤ j.toNat ∧ j.toNat ≤ i.toNat + 2 * nodes e

theorem bind_ok' {x : Outcome α} {a : α} (h : x = .ok a) (f : α → Outcome β) : (x >>= f) = f a := by rw [h]; rfl

mutual
theorem print_ok (m : Mode) : ∀ e : Expr G B, Shown NodeOk e → Prints m e
  | .op o args, h, i, hi => by
    simp only [nodes] at hi
    obtain ⟨j, hj, h1, h2⟩ := printAll_ok m args (fun c hc => h.child hc) i (by omega)
    have key : ∃ j', closeIndent m o j = .ok j' ∧ i.toNat ≤ j'.toNat ∧ j'.toNat ≤ j.toNat := by
      have ho := h.here.2.2
      unfold closeIndent
      split
      · have := riseAll_pos (show ∃ f ∈ args, isFunc f = true from ho)
        obtain ⟨j', h3, h4⟩ := dec_ok m (i := j) (by omega)
        exact ⟨j', by rw [bind_ok' (indent_ok (by omega)), h3], by omega, by omega⟩
      · have := riseAll_pos (show ∃ f ∈ args, isFunc f = true from ho)
        obtain ⟨j', h3, h4⟩ := dec_ok m (i := j) (by omega)
        exact ⟨j', by rw [bind_ok' (indent_ok (by omega)), h3], by omega, by omega⟩
      · exact ⟨j, rfl, by omega, by omega⟩
    obtain ⟨j', h3, h4, h5⟩ := key
    refine ⟨j', ?_, by simp only [rise, isFunc]; simpa using h4, by simp only [nodes]; omega⟩
    simp only [print]
    rw [bind_ok' hj]
    dsimp only
    rw [bind_ok' h3, bind_ok' (orPanic_eq_ok.2 ⟨by rw [tpes_collapse]; exact rebuildOk_true h.here, rfl⟩)]
    simp only [collapse]; rfl
  | .bin k l r, h, i, hi => by
    simp only [nodes] at hi
    obtain ⟨a, ha, h1, h2⟩ := print_ok m l (h.child (by simp [visited])) i (by omega)
    obtain ⟨b, hb, h3, h4⟩ := print_ok m r (h.child (by simp [visited])) a (by omega)
    refine ⟨b, ?_, by simp only [rise, isFunc]; simp; omega, by simp only [nodes]; omega⟩
    simp only [print]
    rw [bind_ok' ha, bind_ok' hb]
    simp only [collapse]; rfl
  | .cast u e t, h, i, hi => by
    simp only [nodes] at hi
    obtain ⟨a, ha, h1, h2⟩ := print_ok m e (h.child (by simp [visited])) i (by omega)
    refine ⟨a, ?_, by simp only [rise, isFunc]; simp; omega, by simp only [nodes]; omega⟩
    simp only [print]
    rw [bind_ok' ha, bind_ok' (orPanic_eq_ok.2 ⟨by dsimp only; rw [tpe_collapse]; exact upcastOk_true h.here, rfl⟩)]
    simp only [collapse]; rfl
  | .extractReg e reg t, h, i, hi => by
    simp only [nodes] at hi
    obtain ⟨a, ha, h1, h2⟩ := print_ok m e (h.child (by simp [visited])) i (by omega)
    refine ⟨a, ?_, by simp only [rise, isFunc]; simp; omega, by simp only [nodes]; omega⟩
    simp only [print]
    rw [bind_ok' ha, bind_ok' (orPanic_eq_ok.2 ⟨by dsimp only; rw [tpe_collapse]; exact h.here.1, rfl⟩)]
    simp only [collapse]; rfl
  | .selectField e x, h, i, hi => by
    simp only [nodes] at hi
    obtain ⟨a, ha, h1, h2⟩ := print_ok m e (h.child (by simp [visited])) i (by omega)
    refine ⟨a, ?_, by simp only [rise, isFunc]; simp; omega, by simp only [nodes]; omega⟩
    simp only [print]
    rw [bind_ok' ha, bind_ok' (orPanic_eq_ok.2 ⟨by dsimp only; rw [tpe_collapse]; exact h.here.1, rfl⟩)]
    simp only [collapse]; rfl
  | .byIndex e x d, h, i, hi => by
    simp only [nodes] at hi
    obtain ⟨a, ha, h1, h2⟩ := print_ok m e (h.child (by simp [visited])) i (by omega)
    obtain ⟨b, hb, h3, h4⟩ := print_ok m x (h.child (by simp [visited])) a (by omega)
    refine ⟨b, ?_, by simp only [rise, isFunc]; simp; omega, by simp only [nodes]; omega⟩
    simp only [print]
    rw [bind_ok' ha, bind_ok' hb,
      bind_ok' (orPanic_eq_ok.2 ⟨by dsimp only; rw [tpe_collapse, tpe_collapse]; exact h.here.1, rfl⟩)]
    simp only [collapse]; rfl
  | .createAvl f g k v, h, i, hi => by
    simp only [nodes] at hi
    obtain ⟨a, ha, h1, h2⟩ := print_ok m g (h.child (by simp [visited])) i (by omega)
    obtain ⟨b, hb, h3, h4⟩ := print_ok m k (h.child (by simp [visited])) a (by omega)
    refine ⟨b, ?_, by simp only [rise, isFunc]; simp; omega, by simp only [nodes]; omega⟩
    simp only [print]
    rw [bind_ok' ha, bind_ok' hb]
    simp only [collapse]; rfl
  | .coll t items, h, i, hi => by
    simp only [nodes] at hi
    obtain ⟨j, hj, h1, h2⟩ := printAll_ok m items (fun c hc => h.child hc) i (by omega)
    refine ⟨j, ?_, by simp only [rise, isFunc]; simp; omega, by simp only [nodes]; omega⟩
    simp only [print]
    rw [bind_ok' hj]
    dsimp only
    rw [newColl_collapse h.here]
    rfl
  | .tuple items, h, i, hi => by
    simp only [nodes] at hi
    obtain ⟨j, hj, h1, h2⟩ := printAll_ok m items (fun c hc => h.child hc) i (by omega)
    refine ⟨j, ?_, by simp only [rise, isFunc]; simp; omega, by simp only [nodes]; omega⟩
    simp only [print]
    rw [bind_ok' hj]
    simp only [collapse]; rfl
  | .sigma isAnd items, h, i, hi => by
    simp only [nodes] at hi
    obtain ⟨j, hj, h1, h2⟩ := printItems_ok m items (fun c hc => h.child hc) i (by omega)
    refine ⟨j, ?_, by simp only [rise, isFunc]; simp; omega, by simp only [nodes]; omega⟩
    simp only [print]
    rw [bind_ok' hj, bind_ok' (indent_ok (by dsimp only; omega))]
    simp only [collapse]; rfl
  | .func args body, h, i, hi => by
    simp only [nodes] at hi
    obtain ⟨i1, h1, e1⟩ := inc_ok m (i := i) (by omega)
    obtain ⟨i2, h2, e2⟩ := inc_ok m (i := i1) (by omega)
    obtain ⟨i3, h3, e3⟩ := inc_ok m (i := i2) (by omega)
    obtain ⟨a, ha, h4, h5⟩ := print_ok m body (h.child (by simp [visited])) i3 (by omega)
    obtain ⟨j, h6, e6⟩ := dec_ok m (i := a) (by omega)
    obtain ⟨j', h7, e7⟩ := dec_ok m (i := j) (by omega)
    refine ⟨j', ?_, by simp only [rise, isFunc, if_true]; omega, by simp only [nodes]; omega⟩
    simp only [print]
    rw [bind_ok' h1, bind_ok' h2, bind_ok' (indent_ok (by omega)), bind_ok' h3, bind_ok' (indent_ok (by omega)), bind_ok' ha,
      bind_ok' h6, bind_ok' (indent_ok (by omega)), bind_ok' h7]
    simp only [collapse]; rfl
  | .apply f args, h, i, hi => by
    simp only [nodes] at hi
    obtain ⟨a, ha, h1, h2⟩ := print_ok m f (h.child (by simp [visited])) i (by omega)
    obtain ⟨b, hb, h3, h4⟩ := printAll_ok m args (fun c hc => h.child (by simp [visited, hc])) a (by omega)
    refine ⟨b, ?_, by simp only [rise, isFunc]; simp; omega, by simp only [nodes]; omega⟩
    simp only [print]
    rw [bind_ok' ha, bind_ok' hb,
      bind_ok' (orPanic_eq_ok.2 ⟨by dsimp only; rw [tpe_collapse, tpes_collapse]; exact h.here.1, rfl⟩)]
    simp only [collapse]; rfl
  | .block items r, h, i, hi => by
    simp only [nodes] at hi
    obtain ⟨i1, h1, e1⟩ := inc_ok m (i := i) (by omega)
    obtain ⟨a, ha, h3, h4⟩ := printLines_ok m items (fun c hc => h.child (by simp [visited, hc])) i1 (by omega)
    obtain ⟨b, hb, h5, h6⟩ := print_ok m r (h.child (by simp [visited])) a (by omega)
    obtain ⟨j, h7, e7⟩ := dec_ok m (i := b) (by omega)
    refine ⟨j, ?_, by simp only [rise, isFunc]; simp; omega, by simp only [nodes]; omega⟩
    simp only [print]
    rw [bind_ok' h1, bind_ok' ha, bind_ok' (indent_ok (by dsimp only; omega)), bind_ok' hb, bind_ok' h7,
      bind_ok' (indent_ok (by omega))]
    simp only [collapse]; rfl
  | .valDef id rhs, h, i, hi => by
    simp only [nodes] at hi
    obtain ⟨a, ha, h1, h2⟩ := print_ok m rhs (h.child (by simp [visited])) i (by omega)
    refine ⟨a, ?_, by simp only [rise, isFunc]; simp; omega, by simp only [nodes]; omega⟩
    simp only [print]
    rw [bind_ok' ha]
    simp only [collapse]; rfl
  | .method ti mi sig obj args, h, i, hi => by
    simp only [nodes] at hi
    obtain ⟨a, ha, h1, h2⟩ := print_ok m obj (h.child (by simp [visited])) i (by omega)
    obtain ⟨b, hb, h3, h4⟩ := printAll_ok m args (fun c hc => h.child (by simp [visited, hc])) a (by omega)
    refine ⟨b, ?_, by simp only [rise, isFunc]; simp; omega, by simp only [nodes]; omega⟩
    simp only [print]
    rw [bind_ok' ha, bind_ok' hb]
    simp only [collapse]; rfl
  | .property ti mi sig obj, h, i, hi => by
    simp only [nodes] at hi
    obtain ⟨a, ha, h1, h2⟩ := print_ok m obj (h.child (by simp [visited])) i (by omega)
    refine ⟨a, ?_, by simp only [rise, isFunc]; simp; omega, by simp only [nodes]; omega⟩
    simp only [print]
    rw [bind_ok' ha]
    simp only [collapse]; rfl
  | .const c, h, i, hi => ⟨i, by simp only [print, collapse], by simp [rise, isFunc], by omega⟩
  | .placeholder id t, h, i, hi => ⟨i, by simp only [print, collapse], by simp [rise, isFunc], by omega⟩
  | .valUse id t, h, i, hi => ⟨i, by simp only [print, collapse], by simp [rise, isFunc], by omega⟩
  | .bools l, h, i, hi => ⟨i, by simp only [print, collapse], by simp [rise, isFunc], by omega⟩
  | .getVar id t, h, i, hi => ⟨i, by simp only [print, collapse], by simp [rise, isFunc], by omega⟩
  | .deserCtx t id, h, i, hi => ⟨i, by simp only [print, collapse], by simp [rise, isFunc], by omega⟩
  | .deserReg reg t d, h, i, hi => ⟨i, by simp only [print, collapse], by simp [rise, isFunc], by omega⟩
theorem printAll_ok (m : Mode) : ∀ l : List (Expr G B), (∀ c ∈ l, Shown NodeOk c) → ∀ i : BitVec 64,
    i.toNat + 6 * nodesAll l < 2 ^ 63 →
    ∃ j, printAll m l i = .ok (collapseAll l, j) ∧ i.toNat + riseAll l ≤ j.toNat ∧ j.toNat ≤ i.toNat + 2 * nodesAll l
  | [], h, i, hi => ⟨i, by simp only [printAll, collapseAll], by simp [riseAll], by omega⟩
  | e :: l, h, i, hi => by
    simp only [nodesAll] at hi
    obtain ⟨a, ha, h1, h2⟩ := print_ok m e (h e (by simp)) i (by omega)
    obtain ⟨b, hb, h3, h4⟩ := printAll_ok m l (fun c hc => h c (by simp [hc])) a (by omega)
    refine ⟨b, ?_, by simp only [riseAll]; omega, by simp only [nodesAll]; omega⟩
    simp only [printAll]
    rw [bind_ok' ha, bind_ok' hb]
    simp only [collapseAll]; rfl
theorem printLines_ok (m : Mode) : ∀ l : List (Expr G B), (∀ c ∈ l, Shown NodeOk c) → ∀ i : BitVec 64,
    i.toNat + 6 * nodesAll l < 2 ^ 63 →
    ∃ j, printLines m l i = .ok (collapseAll l, j) ∧ i.toNat ≤ j.toNat ∧ j.toNat ≤ i.toNat + 2 * nodesAll l
  | [], h, i, hi => ⟨i, by simp only [printLines, collapseAll], by omega, by omega⟩
  | e :: l, h, i, hi => by
    simp only [nodesAll] at hi
    obtain ⟨a, ha, h1, h2⟩ := print_ok m e (h e (by simp)) i (by omega)
    obtain ⟨b, hb, h3, h4⟩ := printLines_ok m l (fun c hc => h c (by simp [hc])) a (by omega)
    refine ⟨b, ?_, by omega, by simp only [nodesAll]; omega⟩
    simp only [printLines]
    rw [bind_ok' (indent_ok (by omega)), bind_ok' ha, bind_ok' hb]
    simp only [collapseAll]; rfl
theorem printItems_ok (m : Mode) : ∀ l : List (Expr G B), (∀ c ∈ l, Shown NodeOk c) → ∀ i : BitVec 64,
    i.toNat + 2 + 6 * nodesAll l < 2 ^ 63 →
    ∃ j, printItems m l i = .ok (collapseAll l, j) ∧ i.toNat ≤ j.toNat ∧ j.toNat ≤ i.toNat + 2 * nodesAll l
  | [], h, i, hi => ⟨i, by simp only [printItems, collapseAll], by omega, by omega⟩
  | e :: l, h, i, hi => by
    simp only [nodesAll] at hi
    obtain ⟨i1, h0, e0⟩ := inc_ok m (i := i) (by omega)
    obtain ⟨a, ha, h1, h2⟩ := print_ok m e (h e (by simp)) i1 (by omega)
    obtain ⟨j, h7, e7⟩ := dec_ok m (i := a) (by omega)
    obtain ⟨b, hb, h3, h4⟩ := printItems_ok m l (fun c hc => h c (by simp [hc])) j (by omega)
    refine ⟨b, ?_, by omega, by simp only [nodesAll]; omega⟩
    simp only [printItems]
    rw [bind_ok' h0, bind_ok' (indent_ok (by omega)), bind_ok' ha, bind_ok' h7, bind_ok' hb]
    simp only [collapseAll]; rfl
end

end Verif
