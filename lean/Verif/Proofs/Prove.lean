import Verif.Proofs.Score

set_option linter.unusedSimpArgs false
set_option linter.unusedVariables false

namespace Verif
open Merkle Spec
variable {G : Type}

/-! ## Adjacent pairs -/

theorem all_zip_chain {α : Type} (q : α → α → Bool) : ∀ l : List α,
    ((l.zip (l.drop 1)).all fun x => q x.1 x.2) = true ↔ l.IsChain fun a b => q a b = true := by
  intro l
  induction l with
  | nil => simp
  | cons a l ih =>
    cases l with
    | nil => simp
    | cons b l =>
      rw [List.isChain_cons_cons, ← ih]
      simp [List.zip_cons_cons]

theorem heights_iff (p : NipopowProof G) : p.heights = true ↔ Rising p.chain := by
  unfold NipopowProof.heights Rising
  rw [all_zip_chain (fun a b : Header G => decide (a.height.toNat < b.height.toNat)) p.chain]
  simp only [decide_eq_true_eq]
  constructor
  · intro h
    haveI : Trans (fun a b : Header G => a.height.toNat < b.height.toNat) (fun a b : Header G => a.height.toNat < b.height.toNat)
        (fun a b : Header G => a.height.toNat < b.height.toNat) := ⟨fun h1 h2 => Nat.lt_trans h1 h2⟩
    exact List.isChain_iff_pairwise.1 h
  · intro h
    exact List.Pairwise.isChain h

/-- Next element of a proof prefix is linked to the one before. -/
def Linked (a b : PoPowHeader G) : Prop := a.header.id ∈ b.interlinks ∨ b.header.parentId = a.header.id

theorem connections_iff (p : NipopowProof G) :
    p.connections = true ↔ (p.pre ++ [p.suffixHead]).IsChain Linked ∧
      (p.suffixHead.header :: p.suffixTail).IsChain fun a b => b.parentId = a.id := by
  unfold NipopowProof.connections
  rw [Bool.and_eq_true]
  have h1 := all_zip_chain (fun a b : Header G => decide (b.parentId = a.id)) (p.suffixHead.header :: p.suffixTail)
  simp only [List.drop_one, List.tail_cons, decide_eq_true_eq] at h1
  have h2 : ∀ (l : List (PoPowHeader G)) (s : PoPowHeader G),
      ((l.zip (l.drop 1 ++ [s])).all fun x => x.2.interlinks.contains x.1.header.id || decide (x.2.header.parentId = x.1.header.id)) = true ↔
        (l ++ [s]).IsChain Linked := by
    intro l s
    induction l with
    | nil => simp
    | cons a l ih =>
      cases l with
      | nil => simp [Linked]
      | cons b l =>
        rw [List.cons_append, List.cons_append, List.isChain_cons_cons, ← List.cons_append, ← ih]
        simp [List.zip_cons_cons, Linked]
  rw [h2, h1]

/-! ## Rounds of the prover -/

/-- What is needed of a chain to prove from it: levels, as natural numbers. -/
def HasLevels (W : Pow) (lv : PoPowHeader G → Nat) (c : List (PoPowHeader G)) : Prop :=
  ∀ p ∈ c, ∃ l, W.maxLevel p.header = .ok l ∧ l.toInt = lv p

/-- The blocks of a round. -/
def subOf (lv : PoPowHeader G → Nat) (level : Nat) (height : Nat) (c : List (PoPowHeader G)) : List (PoPowHeader G) :=
  c.filter fun p => decide (level ≤ lv p ∧ height ≤ p.header.height.toNat)

theorem subChain_eq (W : Pow) (lv : PoPowHeader G → Nat) (level : Nat) (height : BitVec 32) : ∀ c : List (PoPowHeader G),
    HasLevels W lv c → subChain W level height c = .ok (subOf lv level height.toNat c) := by
  intro c
  induction c with
  | nil => intro _; rfl
  | cons p c ih =>
    intro h
    obtain ⟨l, h1, h2⟩ := h p (by simp)
    simp only [subChain]
    rw [h1, ih (fun q hq => h q (by simp [hq]))]
    show Outcome.ok _ = _
    unfold subOf
    rw [h2, List.filter_cons]
    simp only [decide_eq_true_eq, Int.ofNat_le]

variable [DecidableEq G]

theorem addMissing_mem : ∀ (l pre : List (PoPowHeader G)) x, x ∈ addMissing pre l ↔ x ∈ pre ∨ x ∈ l := by
  intro l
  induction l with
  | nil => intro pre x; simp [addMissing]
  | cons p l ih =>
    intro pre x
    simp only [addMissing]
    split
    · next h =>
      rw [ih, List.mem_cons]
      constructor
      · rintro (h' | h')
        · exact .inl h'
        · exact .inr (.inr h')
      · rintro (h' | h' | h')
        · exact .inl h'
        · subst h'; exact .inl h
        · exact .inr h'
    · rw [ih, List.mem_append, List.mem_singleton, List.mem_cons, or_assoc]

theorem addMissing_nodup : ∀ (l pre : List (PoPowHeader G)), pre.Nodup → (addMissing pre l).Nodup := by
  intro l
  induction l with
  | nil => intro pre h; exact h
  | cons p l ih =>
    intro pre h
    simp only [addMissing]
    split
    · exact ih _ h
    · next hp =>
      apply ih
      rw [List.nodup_append]
      refine ⟨h, by simp, ?_⟩
      intro a ha b hb e
      simp only [List.mem_singleton] at hb
      subst hb; subst e; exact hp ha

/-- The anchor of the round for a level, given the number `d` of rounds already done. -/
def nextAnchor (lv : PoPowHeader G → Nat) (m : Nat) (c : List (PoPowHeader G)) (level : Nat) (a : PoPowHeader G) : PoPowHeader G :=
  let sub := subOf lv level a.header.height.toNat c
  if m < sub.length then (sub[sub.length - m]?).getD a else a

/-- The union of the rounds. -/
theorem proveLoop_spec (W : Pow) (lv : PoPowHeader G → Nat) (m : Nat) (hm : 1 ≤ m) (c : List (PoPowHeader G)) (hl : HasLevels W lv c) :
    ∀ (n : Nat) (a : PoPowHeader G) (pre : List (PoPowHeader G)), pre.Nodup →
    ∃ (r : List (PoPowHeader G)) (anc : Nat → PoPowHeader G), proveLoop W m c n a pre = .ok r ∧ r.Nodup ∧
      (0 < n → anc (n - 1) = a) ∧ (∀ ℓ, ℓ + 1 < n → anc ℓ = nextAnchor lv m c (ℓ + 1) (anc (ℓ + 1))) ∧
      ∀ x, x ∈ r ↔ x ∈ pre ∨ ∃ ℓ < n, x ∈ subOf lv ℓ (anc ℓ).header.height.toNat c := by
  intro n
  induction n with
  | zero =>
    intro a pre hp
    exact ⟨pre, fun _ => a, rfl, hp, by omega, by omega, by simp⟩
  | succ n ih =>
    intro a pre hp
    simp only [proveLoop]
    rw [subChain_eq W lv n _ c hl]
    obtain ⟨r, anc, h1, h2, h3, h4, h5⟩ := ih (nextAnchor lv m c n a) (addMissing pre (subOf lv n a.header.height.toNat c)) (addMissing_nodup _ _ hp)
    refine ⟨r, fun ℓ => if ℓ = n then a else anc ℓ, ?_, h2, by simp, ?_, ?_⟩
    · have hnext : ((if m < (subOf lv n a.header.height.toNat c).length then
          (match (subOf lv n a.header.height.toNat c)[(subOf lv n a.header.height.toNat c).length - m]? with
            | some a => Outcome.ok a
            | none => Outcome.panic)
          else Outcome.ok a) : Outcome (PoPowHeader G)) = .ok (nextAnchor lv m c n a) := by
        unfold nextAnchor
        dsimp only
        by_cases hlt : m < (subOf lv n a.header.height.toNat c).length
        · rw [if_pos hlt, if_pos hlt]
          have hidx : (subOf lv n a.header.height.toNat c).length - m < (subOf lv n a.header.height.toNat c).length := by omega
          rw [List.getElem?_eq_getElem hidx]
          rfl
        · rw [if_neg hlt, if_neg hlt]
      show (((if m < (subOf lv n a.header.height.toNat c).length then
          (match (subOf lv n a.header.height.toNat c)[(subOf lv n a.header.height.toNat c).length - m]? with
            | some a => Outcome.ok a
            | none => Outcome.panic)
          else Outcome.ok a) : Outcome (PoPowHeader G)) >>= fun next =>
            proveLoop W m c n next (addMissing pre (subOf lv n a.header.height.toNat c))) = _
      rw [hnext]
      exact h1
    · intro ℓ hℓ
      dsimp only
      by_cases he : ℓ + 1 = n
      · rw [if_neg (by omega), if_pos he]
        have := h3 (by omega)
        rw [show n - 1 = ℓ from by omega] at this
        rw [this, he]
      · rw [if_neg (by omega), if_neg he]
        exact h4 ℓ (by omega)
    · intro x
      rw [h5, addMissing_mem]
      dsimp only
      constructor
      · rintro ((h | h) | ⟨ℓ, hℓ, h⟩)
        · exact .inl h
        · exact .inr ⟨n, by omega, by simpa using h⟩
        · exact .inr ⟨ℓ, by omega, by rw [if_neg (by omega)]; exact h⟩
      · rintro (h | ⟨ℓ, hℓ, h⟩)
        · exact .inl (.inl h)
        · by_cases he : ℓ = n
          · subst he
            rw [if_pos rfl] at h
            exact .inl (.inr h)
          · rw [if_neg he] at h
            exact .inr ⟨ℓ, by omega, h⟩

end Verif
