import Verif.Model.Merkle

set_option linter.unusedSimpArgs false
set_option linter.unusedVariables false

/-! Strictly increasing lists as sets. -/

namespace Verif.Merkle

/-- Strictly increasing. -/
abbrev Sorted (l : List Nat) : Prop := l.Pairwise (· < ·)

theorem mem_setInsert (x y : Nat) (l : List Nat) : y ∈ setInsert x l ↔ y = x ∨ y ∈ l := by
  induction l with
  | nil => simp [setInsert]
  | cons a l ih =>
    unfold setInsert
    split
    · simp
    · split
      · rename_i h; subst h; simp
      · simp only [List.mem_cons, ih]
        constructor
        · rintro (h | h | h) <;> simp [h]
        · rintro (h | h | h) <;> simp [h]

theorem sorted_setInsert (x : Nat) (l : List Nat) (h : Sorted l) : Sorted (setInsert x l) := by
  induction l with
  | nil => simp [setInsert, Sorted]
  | cons a l ih =>
    have h' := List.pairwise_cons.1 h
    unfold setInsert
    split
    · rename_i hx
      refine List.pairwise_cons.2 ⟨?_, h⟩
      intro y hy
      rcases List.mem_cons.1 hy with rfl | hy
      · exact hx
      · exact Nat.lt_trans hx (h'.1 y hy)
    · split
      · exact h
      · refine List.pairwise_cons.2 ⟨?_, ih h'.2⟩
        intro y hy
        rcases (mem_setInsert x y l).1 hy with rfl | hy
        · omega
        · exact h'.1 y hy

theorem foldl_setInsert (l : List Nat) : ∀ s, Sorted s →
    Sorted (l.foldl (fun s x => setInsert x s) s) ∧ ∀ y, y ∈ l.foldl (fun s x => setInsert x s) s ↔ y ∈ s ∨ y ∈ l := by
  induction l with
  | nil => intro s hs; simp [hs]
  | cons a l ih =>
    intro s hs
    obtain ⟨h1, h2⟩ := ih (setInsert a s) (sorted_setInsert a s hs)
    refine ⟨h1, fun y => ?_⟩
    rw [List.foldl_cons, h2, mem_setInsert, List.mem_cons]
    constructor
    · rintro ((h | h) | h) <;> simp [h]
    · rintro (h | h | h) <;> simp [h]

theorem sorted_toSet (l : List Nat) : Sorted (toSet l) := (foldl_setInsert l [] List.Pairwise.nil).1

theorem mem_toSet (l : List Nat) (y : Nat) : y ∈ toSet l ↔ y ∈ l := by
  have := (foldl_setInsert l [] List.Pairwise.nil).2 y
  unfold toSet
  rw [this]; simp

/-- A strictly increasing list is determined by its elements. -/
theorem sorted_ext : ∀ (l l' : List Nat), Sorted l → Sorted l' → (∀ x, x ∈ l ↔ x ∈ l') → l = l' := by
  intro l
  induction l with
  | nil =>
    intro l' _ _ h
    cases l' with
    | nil => rfl
    | cons a l' => have := (h a).2 (by simp); cases this
  | cons a l ih =>
    intro l' hl hl' h
    cases l' with
    | nil => have := (h a).1 (by simp); cases this
    | cons b l' =>
      have h1 := List.pairwise_cons.1 hl
      have h2 := List.pairwise_cons.1 hl'
      have hab : a = b := by
        have ha : a ∈ b :: l' := (h a).1 (by simp)
        have hb : b ∈ a :: l := (h b).2 (by simp)
        rcases List.mem_cons.1 ha with e | ha
        · exact e
        rcases List.mem_cons.1 hb with e | hb
        · exact e.symm
        have := h2.1 a ha
        have := h1.1 b hb
        omega
      subst hab
      congr 1
      refine ih l' h1.2 h2.2 (fun x => ?_)
      constructor
      · intro hx
        rcases List.mem_cons.1 ((h x).1 (by simp [hx])) with e | hx'
        · have := h1.1 x hx; omega
        · exact hx'
      · intro hx
        rcases List.mem_cons.1 ((h x).2 (by simp [hx])) with e | hx'
        · have := h2.1 x hx; omega
        · exact hx'

theorem toSet_sorted {l : List Nat} (h : Sorted l) : toSet l = l :=
  sorted_ext _ _ (sorted_toSet l) h (mem_toSet l)

theorem sorted_map_add {l : List Nat} (c : Nat) (h : Sorted l) : Sorted (l.map (c + ·)) := by
  rw [Sorted, List.pairwise_map]
  exact h.imp (fun hab => by omega)

theorem sorted_filter {l : List Nat} (p : Nat → Bool) (h : Sorted l) : Sorted (l.filter p) := h.filter p

end Verif.Merkle
