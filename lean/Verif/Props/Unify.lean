import Verif.Proofs.Unify

/-!
# C17 – type unification is sound
-/

namespace Verif
open Spec SType

/-- C17: if unification of a pattern with a type without type variables succeeds, then the pattern with the substitution
applied accepts the type (equal up to `Any`, tuples used as `Coll[Any]`, and `SigmaProp` used as `Boolean`). -/
theorem C17_sound (t1 t2 : SType) (σ : Subst) (hg : Ground t2) (h : unifyOne t1 t2 = some σ) :
    Accepts (withSubst σ t1) t2 :=
  unify_sound t1 t2 σ h (fun v _ => vars_ground t2 hg v) σ (fun _ _ e => e)

/-- C17: the same for types with type variables, as long as the pattern has none of them: a type variable of the type is an unknown
type, which only itself, `Any` and a variable of the pattern accept. -/
theorem C17_sound_variables (t1 t2 : SType) (σ : Subst) (hv : ∀ v ∈ vars t1, v ∉ vars t2) (h : unifyOne t1 t2 = some σ) :
    Accepts (withSubst σ t1) t2 :=
  unify_sound t1 t2 σ h hv σ (fun _ _ e => e)

/-- `(Coll[T], T)` against `(Coll[Option[U]], Option[U])`. -/
example : unifyOne (.tuple [.coll (.typeVar [0x54]), .typeVar [0x54]])
    (.tuple [.coll (.option (.typeVar [0x55])), .option (.typeVar [0x55])]) = some [([0x54], .option (.typeVar [0x55]))] := by decide

/-- C17: a function type after a substitution: the type parameters left are those without a binding, in order, and if the parameters
covered all variables of the type and the bindings have no variables, then they still do. -/
theorem C17_parameters (σ : Subst) (d : List SType) (r : SType) (p : List Bytes) :
    ∃ d' r' p', withSubst σ (.func d r p) = .func d' r' p' ∧ p'.Sublist p ∧ (∀ v, v ∈ p' ↔ v ∈ p ∧ σ.get v = none) ∧
      ((∀ v t, σ.get v = some t → Ground t) → (∀ v ∈ vars (.func d r p), v ∈ p) → ∀ v ∈ vars (.func d' r' p'), v ∈ p') := by
  refine ⟨_, _, _, by rw [withSubst], List.filter_sublist, ?_, ?_⟩
  · intro v
    rw [List.mem_filter]
    simp only [FMap.contains, Bool.not_eq_true', Option.isSome_eq_false_iff, Option.isNone_iff_eq_none]
  · intro hg hp v hv
    obtain ⟨h1, h2⟩ := vars_withSubst σ hg (.func d r p) v (by rw [withSubst]; exact hv)
    simp only [List.mem_filter, FMap.contains, h2, hp v h1]
    simp

/-- `[T, U] => (Coll[T], U) => T` with `T := Int`. -/
example : withSubst [([0x54], .int)] (.func [.coll (.typeVar [0x54]), .typeVar [0x55]] (.typeVar [0x54]) [[0x54], [0x55]]) =
    .func [.coll .int, .typeVar [0x55]] .int [[0x55]] := by decide

/-- `(Coll[T], (U) => Option[T], Any)` against `(Coll[Int], (Box) => Option[Int], Byte)`. -/
def c17Pattern : SType := .tuple [.coll (.typeVar [0x54]), .func [.typeVar [0x55]] (.option (.typeVar [0x54])) [], .any]
/-- See `c17Pattern`. -/
def c17Type : SType := .tuple [.coll .int, .func [.box] (.option .int) [], .byte]

example : Ground c17Type ∧ NoUnit c17Type ∧
    unifyOne c17Pattern c17Type = some [([0x54], .int), ([0x55], .box)] := by
  refine ⟨by simp [c17Type, Ground, Grounds], by simp [c17Type, NoUnit, NoUnits], by decide⟩

/-- A variable that would need two types is refused: `(T, T)` against `(Int, Long)`. -/
example : unifyOne (.tuple [.typeVar [0x54], .typeVar [0x54]]) (.tuple [.int, .long]) = none := by decide

/-- C17: applying the result to the pattern leaves no type variable. -/
theorem C17_ground (t1 t2 : SType) (σ : Subst) (hg : Ground t2) (h : unifyOne t1 t2 = some σ) :
    Ground (withSubst σ t1) :=
  withSubst_ground t1 t2 σ h hg σ (fun _ _ e => e)

/-- C17, the law of the doc comment (`unify_one(t1.with_subst(subst), t2) == Ok(empty)`) for types without type variables
and without the unit type. -/
theorem C17_idempotent_partial (t1 t2 : SType) (σ : Subst) (hg : Ground t2) (hu : NoUnit t2)
    (h : unifyOne t1 t2 = some σ) : unifyOne (withSubst σ t1) t2 = some [] :=
  unify_accepts _ _ (C17_ground t1 t2 σ hg h) hu (C17_sound t1 t2 σ hg h)

/-- C17, completeness: if some substitution makes the pattern equal to the type (no type variables, no unit), unification
succeeds, and every binding it returns is a binding of that substitution; so no substitution is missed and none is
invented. -/
theorem C17_complete (t1 t2 : SType) (ρ : Subst) (hg : Ground t2) (hu : NoUnit t2) (h : withSubst ρ t1 = t2) :
    ∃ σ, unifyOne t1 t2 = some σ ∧ ∀ v t, σ.get v = some t → ρ.get v = some t := by
  obtain ⟨σ, e, hs⟩ := unify_complete ρ t1 t2 h hg hu
  exact ⟨σ, e, hs.sub⟩

example : withSubst [([0x54], .int), ([0x55], .box)]
    (.tuple [.coll (.typeVar [0x54]), .func [.typeVar [0x55]] (.option (.typeVar [0x54])) []]) =
    .tuple [.coll .int, .func [.box] (.option .int) []] := by decide

/-- C17, consistency of `unify_many`: success means equal lengths, every pair unifies, all bindings found for the pairs
are in the result (so one variable never gets two types), and the result contains nothing else. -/
theorem C17_many (l1 l2 : List SType) (σ : Subst) (h : unifyMany l1 l2 = some σ) :
    l1.length = l2.length ∧
    (∀ (i : Nat) t1 t2, l1[i]? = some t1 → l2[i]? = some t2 →
      ∃ s, unifyOne t1 t2 = some s ∧ ∀ v t, s.get v = some t → σ.get v = some t) ∧
    (∀ v t, σ.get v = some t → ∃ (i : Nat) (t1 t2 : SType) (s : Subst),
      l1[i]? = some t1 ∧ l2[i]? = some t2 ∧ unifyOne t1 t2 = some s ∧ (v, t) ∈ s) := by
  unfold unifyMany at h
  split at h
  · cases h
  · rename_i hl
    have hl : l1.length = l2.length := Classical.not_not.1 hl
    obtain ⟨ss, h1, h2⟩ := Option.bind_eq_some_iff.1 h
    obtain ⟨_, hsub, horig⟩ := mergeAll_some ss [] σ h2
    have pairs : ∀ (l1 l2 : List SType) (ss : List Subst), unifyPairs l1 l2 = some ss → l1.length = l2.length →
        (∀ (i : Nat) t1 t2, l1[i]? = some t1 → l2[i]? = some t2 → ∃ s ∈ ss, unifyOne t1 t2 = some s) ∧
        (∀ s ∈ ss, ∃ (i : Nat) (t1 t2 : SType), l1[i]? = some t1 ∧ l2[i]? = some t2 ∧ unifyOne t1 t2 = some s) := by
      intro l1
      induction l1 with
      | nil =>
        intro l2 ss h hl
        simp [unifyPairs] at h
        subst h
        exact ⟨by simp, by simp⟩
      | cons a l ih =>
        intro l2 ss h hl
        cases l2 with
        | nil => simp at hl
        | cons b l' =>
          rw [unifyPairs] at h
          obtain ⟨s, e1, h⟩ := Option.bind_eq_some_iff.1 h
          obtain ⟨ss', e2, h⟩ := Option.bind_eq_some_iff.1 h
          simp at h
          subst h
          obtain ⟨q1, q2⟩ := ih l' ss' e2 (by simpa using hl)
          refine ⟨?_, ?_⟩
          · intro i t1 t2 g1 g2
            cases i with
            | zero =>
              simp at g1 g2
              subst g1 g2
              exact ⟨s, by simp, e1⟩
            | succ i =>
              obtain ⟨x, hx, ex⟩ := q1 i t1 t2 (by simpa using g1) (by simpa using g2)
              exact ⟨x, by simp [hx], ex⟩
          · intro x hx
            rcases List.mem_cons.1 hx with rfl | hx
            · exact ⟨0, a, b, by simp, by simp, e1⟩
            · obtain ⟨i, t1, t2, g1, g2, g3⟩ := q2 x hx
              exact ⟨i + 1, t1, t2, by simpa using g1, by simpa using g2, g3⟩
    obtain ⟨p1, p2⟩ := pairs l1 l2 ss h1 hl
    refine ⟨hl, ?_, ?_⟩
    · intro i t1 t2 g1 g2
      obtain ⟨s, hs, e⟩ := p1 i t1 t2 g1 g2
      exact ⟨s, e, hsub s hs⟩
    · intro v t e
      rcases horig v t e with h | ⟨s, hs, hm⟩
      · simp [FMap.get] at h
      · obtain ⟨i, t1, t2, g1, g2, g3⟩ := p2 s hs
        exact ⟨i, t1, t2, s, g1, g2, g3, hm⟩

example : unifyMany [.typeVar [0x54], .coll (.typeVar [0x54])] [.int, .coll .int] = some [([0x54], .int)] := by decide

/-- Finding: the law of the doc comment is false for the unit type: `T` unifies with `Unit`, but `Unit` does not unify
with `Unit`. -/
theorem C17_unit_breaks_law :
    unifyOne (.typeVar [0x54]) .unit = some [([0x54], .unit)] ∧
    withSubst [([0x54], .unit)] (.typeVar [0x54]) = .unit ∧ unifyOne .unit .unit = none := by decide

/-- Finding: with type variables on the right side the result can be wrong: `(T, T)` against `(T, Int)` gives `T := Int`,
but `(Int, Int)` does not accept `(T, Int)`. -/
theorem C17_variables_on_the_right :
    unifyOne (.tuple [.typeVar [0x54], .typeVar [0x54]]) (.tuple [.typeVar [0x54], .int]) = some [([0x54], .int)] ∧
    ¬ Accepts (withSubst [([0x54], .int)] (.tuple [.typeVar [0x54], .typeVar [0x54]])) (.tuple [.typeVar [0x54], .int]) := by
  refine ⟨by decide, ?_⟩
  simp [withSubst, withSubsts, FMap.get, Accepts, AcceptsAll]

end Verif
