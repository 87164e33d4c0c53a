import Verif.Proofs.ScriptErrors

/-!
# The time that type inference takes
-/

set_option linter.unusedSimpArgs false
set_option linter.unusedVariables false

namespace Verif
namespace Script
open ScriptSpec
variable {G B : Type}

/-- The text `1+1+ … +1` with `k` additions. -/
def ones (k : Nat) : List Char := '1' :: (List.replicate k ['+', '1']).flatten

/-- The sum `1+1+ … +1` with `k` additions. -/
def oneSum : Nat → Ex
  | 0 => .int ['1']
  | k + 1 => .bin .plus (oneSum k) (.int ['1'])

theorem next_of {c : Char} {s t r : List Char} {k : TokKind} (h : lexOne c s = (k, t, r)) : Next (c :: s) k t r := by
  have := lexOne_next c s
  rw [h] at this
  exact this

theorem lexOne_one (s : List Char) : lexOne '1' ('+' :: s) = (.intNumber, ['1'], '+' :: s) := by
  simp [lexOne, isBlank, isLetter, isDigit]
theorem lexOne_plus (s : List Char) : lexOne '+' ('1' :: s) = (.plus, ['+'], '1' :: s) := by
  simp [lexOne, isBlank, isLetter, isDigit]
theorem lexOne_end : lexOne '1' [] = (.intNumber, ['1'], []) := by
  simp [lexOne, isBlank, isLetter, isDigit]

theorem ones_succ (k : Nat) : ones (k + 1) = '1' :: '+' :: ones k := by
  simp [ones, List.replicate_succ]

/-- The words of `ones k`. -/
def oneWords : Nat → List (TokKind × List Char)
  | 0 => [(.intNumber, ['1'])]
  | k + 1 => (.intNumber, ['1']) :: (.plus, ['+']) :: oneWords k

theorem oneWords_snoc (k : Nat) : oneWords (k + 1) = oneWords k ++ [(.plus, ['+']), (.intNumber, ['1'])] := by
  induction k with
  | zero => rfl
  | succ k ih =>
    show _ :: _ :: oneWords (k + 1) = _ :: _ :: oneWords k ++ _
    rw [ih]; rfl

theorem oneSum_words (k : Nat) : (oneSum k).words = oneWords k := by
  induction k with
  | zero => rfl
  | succ k ih => rw [oneSum, Ex.words, ih, oneWords_snoc]; rfl

theorem oneSum_ok (k : Nat) : (oneSum k).Ok := by
  induction k with
  | zero => trivial
  | succ k ih =>
    refine ⟨ih, trivial, ?_, by decide⟩
    cases k with
    | zero => decide
    | succ k => exact Nat.le_refl 1

theorem ones_tokens (k pos : Nat) : ∃ ts, Tokens pos (ones k) ts ∧ Words ts (oneWords k) := by
  induction k generalizing pos with
  | zero =>
    refine ⟨[⟨.intNumber, ['1'], pos⟩], .cons pos _ _ _ [] [] (next_of lexOne_end) (.nil _), ?_⟩
    exact .keep _ _ _ (by simp [Silent]) .nil
  | succ k ih =>
    obtain ⟨ts, h1, h2⟩ := ih (pos + bytes ['1'] + bytes ['+'])
    have e : ones k = '1' :: (List.replicate k ['+', '1']).flatten := rfl
    refine ⟨⟨.intNumber, ['1'], pos⟩ :: ⟨.plus, ['+'], pos + bytes ['1']⟩ :: ts, ?_, ?_⟩
    · rw [ones_succ]
      refine .cons pos _ _ _ _ _ (next_of (lexOne_one _)) ?_
      refine .cons _ _ _ _ (ones k) _ ?_ h1
      rw [e]
      exact next_of (lexOne_plus _)
    · exact .keep _ _ _ (by simp [Silent]) (.keep _ _ _ (by simp [Silent]) h2)

theorem ones_reads (k : Nat) : Reads (ones k) (words [.expr (oneSum k)]) := by
  obtain ⟨ts, h1, h2⟩ := ones_tokens k 0
  refine ⟨ts, h1, ?_⟩
  rw [words, List.flatMap_cons, List.flatMap_nil, List.append_nil, St.words, oneSum_words]
  exact h2

theorem ones_length (k : Nat) : (ones k).length = 2 * k + 1 := by
  induction k with
  | zero => rfl
  | succ k ih => rw [ones_succ]; simp only [List.length_cons, ih]; omega

theorem oneSum_seen (k : Nat) : St.seen (.expr (oneSum k)) = some (oneSum k) := by cases k <;> rfl

theorem oneSum_plain (k : Nat) : (oneSum k).Plain := by
  have h : (Ex.int ['1']).Plain := by show decimal ['1'] < 2 ^ 31; decide
  induction k with
  | zero => exact h
  | succ k ih => exact ⟨ih, h⟩

theorem oneSum_sums (k : Nat) : (oneSum k).Sums := by
  induction k with
  | zero => trivial
  | succ k ih => exact ⟨rfl, ih, trivial⟩

/-- The calls for a sum that stands for `oneSum k`. -/
theorem oneSum_calls (k : Nat) (h : HExpr) (hr : RepB (oneSum k) h) :
    2 ^ (k / 2) ≤ h.calls ∧ 2 ^ ((k - 1) / 2) ≤ h.calls ∧ 2 ^ (k / 2) ≤ h.calls + HExpr.calls.inner h := by
  have leaf : ∀ h, RepB (.int ['1']) h → h.calls = 1 ∧ HExpr.calls.inner h = 0 := by
    rintro h ⟨sp, rfl, _⟩
    exact ⟨rfl, rfl⟩
  suffices H : ∀ k h, RepB (oneSum k) h → 2 ^ (k / 2) ≤ h.calls ∧ 2 ^ ((k + 1) / 2) ≤ h.calls + HExpr.calls.inner h by
    obtain ⟨a, b⟩ := H k h hr
    refine ⟨a, Nat.le_trans (Nat.pow_le_pow_right (by omega) (by omega)) a, by omega⟩
  intro k
  induction k with
  | zero =>
    intro h hr
    obtain ⟨e1, e2⟩ := leaf h hr
    rw [e1, e2]; decide
  | succ k ih =>
    intro h hr
    obtain ⟨a, b, sp, rfl, h1, h2⟩ := hr
    obtain ⟨i1, i2⟩ := ih a h1
    obtain ⟨e1, e2⟩ := leaf b h2
    simp only [HExpr.calls, HExpr.calls.inner, e1, e2]
    refine ⟨by omega, ?_⟩
    have : (k + 1 + 1) / 2 = k / 2 + 1 := by omega
    have h3 : 2 ^ (k / 2) ≤ 2 ^ ((k + 1) / 2) := Nat.pow_le_pow_right (by omega) (by omega)
    rw [this, Nat.pow_succ]
    omega

end Script
end Verif
