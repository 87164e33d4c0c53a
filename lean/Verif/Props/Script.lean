import Verif.Proofs.ScriptErrors

/-!
# C85: the tokens and the syntax of ErgoScript
-/

namespace Verif
open Script ScriptSpec

/-- C85: the scanner gives the tokens of the text: the longest ones, keywords before identifiers, one character of kind `error` where
no token begins, and each with its position in bytes. -/
theorem C85_tokens (input : List Char) (ts : List Tok) : Tokens 0 input ts ↔ ts = lex input :=
  ⟨fun h => tokens_unique h (lex_tokens input), fun h => h ▸ lex_tokens input⟩

example : lex "val x1=1L//é\n + é".toList =
    [⟨.valKw, "val".toList, 0⟩, ⟨.whitespace, [' '], 3⟩, ⟨.ident, "x1".toList, 4⟩, ⟨.equals, ['='], 6⟩, ⟨.longNumber, "1L".toList, 7⟩,
     ⟨.comment, "//é".toList, 9⟩, ⟨.whitespace, "\n ".toList, 13⟩, ⟨.plus, ['+'], 15⟩, ⟨.whitespace, [' '], 16⟩, ⟨.error, ['é'], 17⟩] := by
  decide +kernel

/-- C85: no text makes the parser panic, and the tree it gives has every character of the text, in order. -/
theorem C85_lossless (src : List Char) : ∃ f errs, parse src = .ok (.node .root f, errs) ∧ texts f = src := parse_text src

/-- C85: the parser gives the tree of a program, and no errors, exactly for the texts of that program: products bind stronger than
sums, operators of the same strength group to the left, a minus sign applies to the operand behind it. -/
theorem C85_grammar (src : List Char) (ss : List St) :
    (∃ g, parse src = .ok (g, []) ∧ strip g = tree ss) ↔ Program ss ∧ Reads src (words ss) := by
  constructor
  · rintro ⟨g, h1, h2⟩
    obtain ⟨ss', h3, h4, h5⟩ := parse_sound h1
    have : ss' = ss := by
      rw [h5] at h2
      simp only [tree, Green.node.injEq, true_and] at h2
      exact trees_inj _ _ h2
    subst this
    exact ⟨h3, h4⟩
  · rintro ⟨h1, h2⟩
    exact parse_complete h1 h2

/-- C85: a text has no errors exactly when it is a program. -/
theorem C85_accepts (src : List Char) : (∃ g, parse src = .ok (g, [])) ↔ ∃ ss, Program ss ∧ Reads src (words ss) := by
  constructor
  · rintro ⟨g, h⟩
    obtain ⟨ss, h1, h2, _⟩ := parse_sound h
    exact ⟨ss, h1, h2⟩
  · rintro ⟨ss, h1, h2⟩
    obtain ⟨g, h, _⟩ := parse_complete h1 h2
    exact ⟨g, h⟩

/-- `1 - 2 * -x - y` is `(1 - 2 * (-x)) - y`. -/
example : ∃ g, parse "1 - 2 * -x // c\n - y".toList = .ok (g, []) ∧
    strip g = tree [.expr (.bin .minus (.bin .minus (.int ['1']) (.bin .multiply (.int ['2']) (.neg (.ident ['x'])))) (.ident ['y']))] := by
  rw [C85_grammar]
  refine ⟨⟨?_, by simp⟩, (reads_iff _ _).2 (by decide +kernel)⟩
  simp [St.body, Ex.Ok, Ex.level, prec]

/-- C85: a row of words is the text of at most one program. -/
theorem C85_unambiguous (ss ss' : List St) (h : Program ss) (h' : Program ss') (hw : words ss = words ss') : ss = ss' :=
  unambiguous ss ss' h h' hw

/-- Without the rules for grouping the same words are the text of two programs. -/
example : words [.expr (.bin .minus (.bin .minus (.int ['1']) (.int ['2'])) (.int ['3']))] =
    words [.expr (.bin .minus (.int ['1']) (.bin .minus (.int ['2']) (.int ['3'])))] := by decide

/-- C85: the errors of the parser are at tokens of the text. -/
theorem C85_errors (src : List Char) (g : Green) (errs : List ParseErr) (h : parse src = .ok (g, errs)) (e : ParseErr) (he : e ∈ errs) :
    ∃ pre mid post, src = pre ++ mid ++ post ∧ mid ≠ [] ∧ e.span = (bytes pre, bytes pre + bytes mid) := by
  obtain ⟨t, h1, h2⟩ := parse_errors src g errs h e he
  obtain ⟨pre, post, h3, h4, h5⟩ := tokens_cover (lex_tokens src) t h1
  refine ⟨pre, t.text, post, h3, h5, ?_⟩
  rw [h2, Tok.range, h4, textLen_eq]
  simp

/-- The errors of a text that is no program. -/
example : ∃ g, parse "1 + )".toList = .ok (g, [⟨[.intNumber, .longNumber, .ident, .minus, .lParen], some .rParen, (4, 5)⟩]) := by
  have h : (match parse "1 + )".toList with
    | .ok (_, errs) => decide (errs = [⟨[.intNumber, .longNumber, .ident, .minus, .lParen], some .rParen, (4, 5)⟩])
    | _ => false) = true := by decide +kernel
  cases hp : parse "1 + )".toList with
  | ok p =>
    rw [hp] at h
    simp only [decide_eq_true_eq] at h
    exact ⟨p.1, by rw [← h]⟩
  | err => rw [hp] at h; simp at h
  | panic => rw [hp] at h; simp at h

end Verif
