import Verif.Spec.Script
import Verif.Proofs.ScriptEvents

/-!
# The scanner finds the tokens
-/

set_option linter.unusedSimpArgs false
set_option linter.unusedVariables false

namespace Verif
namespace Script
open ScriptSpec

theorem isLetter_eq (c : Char) : isLetter c = c.isAlpha := by
  simp only [isLetter, Char.isAlpha, Char.isUpper, Char.isLower, Bool.decide_and]
  rfl

theorem isDigit_eq (c : Char) : isDigit c = c.isDigit := by
  simp only [isDigit, Char.isDigit]
  rfl

theorem isAlnum_iff (c : Char) : isAlnum c = true ↔ WordChar c := by
  simp [isAlnum, WordChar, isLetter_eq, isDigit_eq]

theorem isBlank_iff (c : Char) : isBlank c = true ↔ c = ' ' ∨ c = '\n' := by
  simp [isBlank]

/-- Number of a character, for comparisons. -/
theorem isLetter_num (c : Char) : isLetter c = true ↔ (65 ≤ c.toNat ∧ c.toNat ≤ 90) ∨ (97 ≤ c.toNat ∧ c.toNat ≤ 122) := by
  simp only [isLetter, Bool.or_eq_true, Bool.and_eq_true, decide_eq_true_eq]
  exact Iff.rfl

theorem isDigit_num (c : Char) : isDigit c = true ↔ 48 ≤ c.toNat ∧ c.toNat ≤ 57 := by
  simp only [isDigit, Bool.and_eq_true, decide_eq_true_eq]
  exact Iff.rfl

theorem letter_not_blank {c : Char} (h : isLetter c = true) : isBlank c = false := by
  cases hb : isBlank c with
  | false => rfl
  | true =>
    rcases (isBlank_iff c).1 hb with rfl | rfl <;> revert h <;> decide

theorem digit_not_blank {c : Char} (h : isDigit c = true) : isBlank c = false := by
  cases hb : isBlank c with
  | false => rfl
  | true =>
    rcases (isBlank_iff c).1 hb with rfl | rfl <;> revert h <;> decide

theorem digit_not_letter {c : Char} (h : isDigit c = true) : isLetter c = false := by
  cases hb : isLetter c with
  | false => rfl
  | true =>
    have := (isLetter_num c).1 hb
    have := (isDigit_num c).1 h
    omega

theorem takeWhile_length_ge {p : Char → Bool} (s r : List Char) (h : ∀ x ∈ s, p x = true) :
    s.length ≤ ((s ++ r).takeWhile p).length := by
  induction s with
  | nil => simp
  | cons x s ih =>
    have hx := h x (by simp)
    have := ih fun y hy => h y (by simp [hy])
    simp [List.takeWhile_cons, hx]
    omega

theorem takeWhile_all_id {p : Char → Bool} (s : List Char) (h : ∀ x ∈ s, p x = true) :
    s.takeWhile p = s ∧ s.dropWhile p = [] := by
  induction s with
  | nil => simp
  | cons x s ih =>
    have hx := h x (by simp)
    have := ih fun y hy => h y (by simp [hy])
    simp [List.takeWhile_cons, List.dropWhile_cons, hx, this]

theorem dropWhile_L (s r : List Char) (h : ∀ x ∈ s, isDigit x = true) :
    (s ++ 'L' :: r).takeWhile isDigit = s ∧ (s ++ 'L' :: r).dropWhile isDigit = 'L' :: r := by
  induction s with
  | nil =>
    have : isDigit 'L' = false := by decide
    simp [List.takeWhile_cons, List.dropWhile_cons, this]
  | cons x s ih =>
    have hx := h x (by simp)
    have := ih fun y hy => h y (by simp [hy])
    simp [List.takeWhile_cons, List.dropWhile_cons, hx, this]

theorem wordKind_ne (w : List Char) : wordKind w ≠ .error := by
  simp only [wordKind]
  split
  · simp
  split <;> simp

theorem lexOne_letter {c : Char} (h : isLetter c = true) (s : List Char) :
    lexOne c s = (wordKind (c :: s.takeWhile isAlnum), c :: s.takeWhile isAlnum, s.dropWhile isAlnum) := by
  simp [lexOne, letter_not_blank h, h]

/-- A text of some kind at the beginning: the token is no shorter. -/
theorem lexOne_max (k : TokKind) (t rest : List Char) (h : Lexeme k t) :
    ∃ c s, t = c :: s ∧ (lexOne c (s ++ rest)).1 ≠ .error ∧ t.length ≤ (lexOne c (s ++ rest)).2.1.length := by
  cases k with
  | whitespace =>
    obtain ⟨h1, h2⟩ := h
    cases t with
    | nil => exact absurd rfl h1
    | cons c s =>
      refine ⟨c, s, rfl, ?_⟩
      have hc : isBlank c = true := (isBlank_iff c).2 (h2 c (by simp))
      have := takeWhile_length_ge (p := isBlank) s rest fun x hx => (isBlank_iff x).2 (h2 x (by simp [hx]))
      simp [lexOne, hc]
      omega
  | fnKw =>
    cases h
    refine ⟨'d', ['e', 'f'], rfl, ?_⟩
    rw [lexOne_letter (by decide)]
    constructor
    · dsimp only
      exact wordKind_ne _
    have := takeWhile_length_ge (p := isAlnum) ['e', 'f'] rest (by decide)
    simp at this ⊢
    omega
  | valKw =>
    cases h
    refine ⟨'v', ['a', 'l'], rfl, ?_⟩
    rw [lexOne_letter (by decide)]
    constructor
    · dsimp only
      exact wordKind_ne _
    have := takeWhile_length_ge (p := isAlnum) ['a', 'l'] rest (by decide)
    simp at this ⊢
    omega
  | ident =>
    obtain ⟨c, r, rfl, h1, h2⟩ := h
    refine ⟨c, r, rfl, ?_⟩
    rw [lexOne_letter (by rw [isLetter_eq]; exact h1)]
    constructor
    · dsimp only
      exact wordKind_ne _
    have := takeWhile_length_ge (p := isAlnum) r rest fun x hx => (isAlnum_iff x).2 (h2 x hx)
    simp
    omega
  | intNumber =>
    obtain ⟨h1, h2⟩ := h
    cases t with
    | nil => exact absurd rfl h1
    | cons c s =>
      refine ⟨c, s, rfl, ?_⟩
      have hc : isDigit c = true := by rw [isDigit_eq]; exact h2 c (by simp)
      have := takeWhile_length_ge (p := isDigit) s rest fun x hx => by rw [isDigit_eq]; exact h2 x (by simp [hx])
      simp only [lexOne, hc, digit_not_blank hc, digit_not_letter hc, Bool.false_eq_true, if_false, if_true]
      split <;> simp <;> omega
  | longNumber =>
    obtain ⟨s, rfl, h1, h2⟩ := h
    cases s with
    | nil => exact absurd rfl h1
    | cons c s =>
      refine ⟨c, s ++ ['L'], rfl, ?_⟩
      have hc : isDigit c = true := by rw [isDigit_eq]; exact h2 c (by simp)
      obtain ⟨e1, e2⟩ := dropWhile_L s rest fun x hx => by rw [isDigit_eq]; exact h2 x (by simp [hx])
      have e : s ++ ['L'] ++ rest = s ++ 'L' :: rest := by simp
      simp only [lexOne, hc, digit_not_blank hc, digit_not_letter hc, Bool.false_eq_true, if_false, if_true, e, e1, e2]
      simp
  | plus => cases h; exact ⟨_, _, rfl, by simp [lexOne, isBlank, isLetter, isDigit]⟩
  | minus => cases h; exact ⟨_, _, rfl, by simp [lexOne, isBlank, isLetter, isDigit]⟩
  | star => cases h; exact ⟨_, _, rfl, by simp [lexOne, isBlank, isLetter, isDigit]⟩
  | slash =>
    cases h
    refine ⟨_, _, rfl, ?_⟩
    have a : isBlank '/' = false := by decide
    have b : isLetter '/' = false := by decide
    have d : isDigit '/' = false := by decide
    simp only [lexOne, a, b, d, List.nil_append]
    simp
    split <;> simp
  | and => cases h; exact ⟨_, _, rfl, by simp [lexOne, isBlank, isLetter, isDigit]⟩
  | equals => cases h; exact ⟨_, _, rfl, by simp [lexOne, isBlank, isLetter, isDigit]⟩
  | lParen => cases h; exact ⟨_, _, rfl, by simp [lexOne, isBlank, isLetter, isDigit]⟩
  | rParen => cases h; exact ⟨_, _, rfl, by simp [lexOne, isBlank, isLetter, isDigit]⟩
  | lBrace => cases h; exact ⟨_, _, rfl, by simp [lexOne, isBlank, isLetter, isDigit]⟩
  | rBrace => cases h; exact ⟨_, _, rfl, by simp [lexOne, isBlank, isLetter, isDigit]⟩
  | comment =>
    obtain ⟨r, rfl, h⟩ := h
    refine ⟨'/', '/' :: r, rfl, ?_⟩
    have a : isBlank '/' = false := by decide
    have b : isLetter '/' = false := by decide
    have d : isDigit '/' = false := by decide
    have := takeWhile_length_ge (p := isLineChar) r rest fun x hx => by
      simp only [isLineChar, bne_iff_ne]
      rintro rfl
      exact h hx
    simp [lexOne, a, b, d]
    omega
  | error => exact h.elim

/-- The token is a text of its kind, or one character of kind `error`. -/
theorem lexOne_lexeme' (c : Char) (s : List Char) (k : TokKind) (t rest : List Char) (h : lexOne c s = (k, t, rest)) :
    c :: s = t ++ rest ∧ ((k = .error ∧ t = [c]) ∨ (Lexeme k t ∧ (k = .ident → ¬ Keyword t))) := by
  unfold lexOne at h
  by_cases hb : isBlank c = true
  · rw [if_pos hb] at h
    cases h
    refine ⟨by simp, Or.inr ⟨⟨by simp, ?_⟩, by simp⟩⟩
    intro x hx
    rcases List.mem_cons.1 hx with rfl | hx
    · exact (isBlank_iff _).1 hb
    · exact (isBlank_iff _).1 (takeWhile_mem isBlank _ _ hx)
  rw [if_neg hb] at h
  by_cases hl : isLetter c = true
  · rw [if_pos hl] at h
    cases h
    refine ⟨by simp, Or.inr ?_⟩
    unfold wordKind
    split
    · rename_i he
      exact ⟨he, by simp⟩
    split
    · rename_i he
      exact ⟨he, by simp⟩
    rename_i h1 h2
    refine ⟨⟨c, _, rfl, by rw [← isLetter_eq]; exact hl, fun x hx => (isAlnum_iff x).1 (takeWhile_mem isAlnum _ _ hx)⟩, ?_⟩
    intro _ h
    rcases h with h | h
    · exact h1 h
    · exact h2 h
  rw [if_neg hl] at h
  by_cases hd : isDigit c = true
  · rw [if_pos hd] at h
    have hall : ∀ x ∈ c :: s.takeWhile isDigit, x.isDigit = true := by
      intro x hx
      rcases List.mem_cons.1 hx with rfl | hx
      · rw [← isDigit_eq]; exact hd
      · rw [← isDigit_eq]; exact takeWhile_mem isDigit _ _ hx
    split at h
    · rename_i r hr
      cases h
      refine ⟨?_, Or.inr ⟨⟨_, rfl, by simp, hall⟩, by simp⟩⟩
      simp only [List.cons_append, List.append_assoc, List.singleton_append]
      rw [List.nil_append, ← hr, List.takeWhile_append_dropWhile]
    · cases h
      refine ⟨by simp, Or.inr ⟨⟨by simp, hall⟩, by simp⟩⟩
  rw [if_neg hd] at h
  by_cases h' : c = '+'
  · rw [if_pos h'] at h
    subst h'; cases h; exact ⟨rfl, Or.inr ⟨rfl, by simp⟩⟩
  rw [if_neg h'] at h
  by_cases h' : c = '-'
  · rw [if_pos h'] at h
    subst h'; cases h; exact ⟨rfl, Or.inr ⟨rfl, by simp⟩⟩
  rw [if_neg h'] at h
  by_cases h' : c = '*'
  · rw [if_pos h'] at h
    subst h'; cases h; exact ⟨rfl, Or.inr ⟨rfl, by simp⟩⟩
  rw [if_neg h'] at h
  by_cases h' : c = '/'
  · rw [if_pos h'] at h
    subst h'
    split at h
    · cases h
      refine ⟨by simp, Or.inr ⟨⟨_, rfl, ?_⟩, by simp⟩⟩
      intro hm
      have := takeWhile_mem isLineChar _ _ hm
      simp [isLineChar] at this
    · cases h; exact ⟨rfl, Or.inr ⟨rfl, by simp⟩⟩
  rw [if_neg h'] at h
  by_cases h' : c = '&'
  · rw [if_pos h'] at h
    subst h'
    split at h
    · cases h; exact ⟨rfl, Or.inr ⟨rfl, by simp⟩⟩
    · cases h; exact ⟨rfl, Or.inl ⟨rfl, rfl⟩⟩
  rw [if_neg h'] at h
  by_cases h' : c = '='
  · rw [if_pos h'] at h
    subst h'; cases h; exact ⟨rfl, Or.inr ⟨rfl, by simp⟩⟩
  rw [if_neg h'] at h
  by_cases h' : c = '('
  · rw [if_pos h'] at h
    subst h'; cases h; exact ⟨rfl, Or.inr ⟨rfl, by simp⟩⟩
  rw [if_neg h'] at h
  by_cases h' : c = ')'
  · rw [if_pos h'] at h
    subst h'; cases h; exact ⟨rfl, Or.inr ⟨rfl, by simp⟩⟩
  rw [if_neg h'] at h
  by_cases h' : c = '{'
  · rw [if_pos h'] at h
    subst h'; cases h; exact ⟨rfl, Or.inr ⟨rfl, by simp⟩⟩
  rw [if_neg h'] at h
  by_cases h' : c = '}'
  · rw [if_pos h'] at h
    subst h'; cases h; exact ⟨rfl, Or.inr ⟨rfl, by simp⟩⟩
  rw [if_neg h'] at h
  cases h
  exact ⟨rfl, Or.inl ⟨rfl, rfl⟩⟩

theorem lexOne_lexeme (c : Char) (s : List Char) :
    c :: s = (lexOne c s).2.1 ++ (lexOne c s).2.2 ∧
    (((lexOne c s).1 = .error ∧ (lexOne c s).2.1 = [c]) ∨
     (Lexeme (lexOne c s).1 (lexOne c s).2.1 ∧ ((lexOne c s).1 = .ident → ¬ Keyword (lexOne c s).2.1))) :=
  lexOne_lexeme' c s _ _ _ rfl

theorem lexOne_next (c : Char) (s : List Char) : Next (c :: s) (lexOne c s).1 (lexOne c s).2.1 (lexOne c s).2.2 := by
  obtain ⟨h1, h2⟩ := lexOne_lexeme c s
  have key : ∀ k' t' rest', c :: s = t' ++ rest' → Lexeme k' t' →
      (lexOne c s).1 ≠ .error ∧ t'.length ≤ (lexOne c s).2.1.length := by
    intro k' t' rest' he hl
    obtain ⟨c', s', rfl, h⟩ := lexOne_max k' t' rest' hl
    simp only [List.cons_append, List.cons.injEq] at he
    obtain ⟨rfl, rfl⟩ := he
    exact h
  refine ⟨h1, ?_⟩
  rcases h2 with ⟨h2, h3⟩ | ⟨h2, h3⟩
  · exact Or.inr ⟨h2, by rw [h3]; rfl, fun k' t' rest' he hl => (key k' t' rest' he hl).1 h2⟩
  · exact Or.inl ⟨h2, h3, fun k' t' rest' he hl => (key k' t' rest' he hl).2⟩

/-- The kind is determined by the text. -/
theorem lexOne_self (k : TokKind) (t : List Char) (h : Lexeme k t) (hk : k = .ident → ¬ Keyword t) :
    ∃ c s, t = c :: s ∧ (lexOne c s).1 = k := by
  cases k with
  | whitespace =>
    obtain ⟨h1, h2⟩ := h
    cases t with
    | nil => exact absurd rfl h1
    | cons c s =>
      refine ⟨c, s, rfl, ?_⟩
      have hc : isBlank c = true := (isBlank_iff c).2 (h2 c (by simp))
      simp [lexOne, hc]
  | fnKw => cases h; exact ⟨'d', ['e', 'f'], rfl, by decide⟩
  | valKw => cases h; exact ⟨'v', ['a', 'l'], rfl, by decide⟩
  | ident =>
    obtain ⟨c, r, rfl, h1, h2⟩ := h
    refine ⟨c, r, rfl, ?_⟩
    rw [lexOne_letter (by rw [isLetter_eq]; exact h1)]
    simp only [(takeWhile_all_id (p := isAlnum) r fun x hx => (isAlnum_iff x).2 (h2 x hx)).1]
    have := hk rfl
    simp only [Keyword, not_or] at this
    have a : c :: r ≠ ['d', 'e', 'f'] := this.1
    have b : c :: r ≠ ['v', 'a', 'l'] := this.2
    rw [wordKind, if_neg a, if_neg b]
  | intNumber =>
    obtain ⟨h1, h2⟩ := h
    cases t with
    | nil => exact absurd rfl h1
    | cons c s =>
      refine ⟨c, s, rfl, ?_⟩
      have hc : isDigit c = true := by rw [isDigit_eq]; exact h2 c (by simp)
      have := (takeWhile_all_id (p := isDigit) s fun x hx => by rw [isDigit_eq]; exact h2 x (by simp [hx])).2
      simp only [lexOne, hc, digit_not_blank hc, digit_not_letter hc, Bool.false_eq_true, if_false, if_true, this]
  | longNumber =>
    obtain ⟨s, rfl, h1, h2⟩ := h
    cases s with
    | nil => exact absurd rfl h1
    | cons c s =>
      refine ⟨c, s ++ ['L'], rfl, ?_⟩
      have hc : isDigit c = true := by rw [isDigit_eq]; exact h2 c (by simp)
      obtain ⟨e1, e2⟩ := dropWhile_L s [] fun x hx => by rw [isDigit_eq]; exact h2 x (by simp [hx])
      simp only [lexOne, hc, digit_not_blank hc, digit_not_letter hc, Bool.false_eq_true, if_false, if_true, e1, e2]
  | plus => cases h; exact ⟨_, _, rfl, by decide⟩
  | minus => cases h; exact ⟨_, _, rfl, by decide⟩
  | star => cases h; exact ⟨_, _, rfl, by decide⟩
  | slash => cases h; exact ⟨_, _, rfl, by decide⟩
  | and => cases h; exact ⟨_, _, rfl, by decide⟩
  | equals => cases h; exact ⟨_, _, rfl, by decide⟩
  | lParen => cases h; exact ⟨_, _, rfl, by decide⟩
  | rParen => cases h; exact ⟨_, _, rfl, by decide⟩
  | lBrace => cases h; exact ⟨_, _, rfl, by decide⟩
  | rBrace => cases h; exact ⟨_, _, rfl, by decide⟩
  | comment =>
    obtain ⟨r, rfl, h⟩ := h
    refine ⟨'/', '/' :: r, rfl, ?_⟩
    have a : isBlank '/' = false := by decide
    have b : isLetter '/' = false := by decide
    have d : isDigit '/' = false := by decide
    simp [lexOne, a, b, d]
  | error => exact h.elim

theorem next_unique {input t t' rest rest' : List Char} {k k' : TokKind} (h : Next input k t rest) (h' : Next input k' t' rest') :
    k = k' ∧ t = t' ∧ rest = rest' := by
  obtain ⟨e, h⟩ := h
  obtain ⟨e', h'⟩ := h'
  have hlen : t.length = t'.length → t = t' ∧ rest = rest' := by
    intro hl
    rw [e] at e'
    exact List.append_inj e' hl
  rcases h with ⟨a1, a2, a3⟩ | ⟨a1, a2, a3⟩ <;> rcases h' with ⟨b1, b2, b3⟩ | ⟨b1, b2, b3⟩
  · obtain ⟨rfl, rfl⟩ := hlen (Nat.le_antisymm (b3 _ _ _ e a1) (a3 _ _ _ e' b1))
    obtain ⟨c, s, rfl, h1⟩ := lexOne_self _ _ a1 a2
    obtain ⟨c', s', h0, h2⟩ := lexOne_self _ _ b1 b2
    cases h0
    exact ⟨h1 ▸ h2, rfl, rfl⟩
  · exact absurd a1 (b3 _ _ _ e)
  · exact absurd b1 (a3 _ _ _ e')
  · obtain ⟨rfl, rfl⟩ := hlen (by omega)
    exact ⟨by rw [a1, b1], rfl, rfl⟩

theorem textLen_eq (t : List Char) : textLen t = bytes t := by
  induction t with
  | nil => rfl
  | cons c t ih => simp [textLen, bytes, ih]

theorem next_nonempty {c : Char} {s t rest : List Char} {k : TokKind} (h : Next (c :: s) k t rest) : rest.length ≤ s.length := by
  have h1 : t ≠ [] := by
    rcases h.2 with ⟨a, b, _⟩ | ⟨_, a, _⟩
    · obtain ⟨c, s, rfl, _⟩ := lexOne_self _ _ a b
      simp
    · rintro rfl; simp at a
  cases t with
  | nil => exact absurd rfl h1
  | cons x t =>
    have := h.1
    simp only [List.cons_append, List.cons.injEq] at this
    rw [this.2]; simp

theorem lexFrom_tokens (n pos : Nat) (input : List Char) (h : input.length ≤ n) : Tokens pos input (lexFrom n pos input) := by
  induction n generalizing pos input with
  | zero =>
    have : input = [] := by simpa using h
    subst this
    exact .nil _
  | succ n ih =>
    cases input with
    | nil => exact .nil _
    | cons c s =>
      have hn := lexOne_next c s
      have := next_nonempty hn
      simp only [List.length_cons] at h
      have := ih (pos + textLen (lexOne c s).2.1) (lexOne c s).2.2 (by omega)
      rw [textLen_eq] at this
      have := Tokens.cons pos _ _ _ _ _ hn this
      rw [← textLen_eq] at this
      exact this

theorem lex_tokens (input : List Char) : Tokens 0 input (lex input) := lexFrom_tokens _ _ _ (Nat.le_refl _)

theorem next_nil {k : TokKind} {t rest : List Char} (h : Next [] k t rest) : False := by
  have h0 : t = [] := by
    have := h.1
    simp at this
    exact this.1
  subst h0
  rcases h.2 with ⟨a, b, _⟩ | ⟨_, a, _⟩
  · obtain ⟨c, s, h, _⟩ := lexOne_self _ _ a b
    cases h
  · simp at a

theorem tokens_unique {pos : Nat} {input : List Char} {ts ts' : List Tok} (h : Tokens pos input ts) (h' : Tokens pos input ts') :
    ts = ts' := by
  induction h generalizing ts' with
  | nil pos =>
    cases h' with
    | nil => rfl
    | cons _ _ k t rest ts h hr => exact (next_nil h).elim
  | cons pos input k t rest ts h hr ih =>
    cases h' with
    | nil => exact (next_nil h).elim
    | cons _ _ k' t' rest' ts' h' hr' =>
      obtain ⟨rfl, rfl, rfl⟩ := next_unique h h'
      rw [ih hr']

theorem tokens_lexeme {pos : Nat} {input : List Char} {ts : List Tok} (h : Tokens pos input ts) :
    ∀ t ∈ ts, t.kind ≠ .error → Lexeme t.kind t.text := by
  induction h with
  | nil => simp
  | cons pos input k t rest ts h hr ih =>
    intro x hx hk
    rcases List.mem_cons.1 hx with rfl | hx
    · rcases h.2 with ⟨a, _⟩ | ⟨a, _⟩
      · exact a
      · exact absurd a hk
    · exact ih x hx hk

theorem tokens_text {pos : Nat} {input : List Char} {ts : List Tok} (h : Tokens pos input ts) :
    ts.flatMap Tok.text = input := by
  induction h with
  | nil => rfl
  | cons pos input k t rest ts h hr ih =>
    rw [List.flatMap_cons, ih, h.1]

theorem silent_iff (k : TokKind) : Silent k ↔ k.isTrivia = true := by
  cases k <;> simp [Silent, TokKind.isTrivia]

theorem words_iff (ts : List Tok) (ws : List (TokKind × List Char)) : Words ts ws ↔ (sig ts).map Tok.key = ws := by
  constructor
  · intro h
    induction h with
    | nil => rfl
    | skip t ts ws h hr ih =>
      have := (silent_iff _).1 h
      simpa [sig, this] using ih
    | keep t ts ws h hr ih =>
      have : t.kind.isTrivia = false := by
        cases hk : t.kind.isTrivia with
        | false => rfl
        | true => exact absurd ((silent_iff _).2 hk) h
      simp only [sig, List.filter_cons, this, Bool.not_false, if_true, List.map_cons]
      rw [← ih]
      rfl
  · rintro rfl
    induction ts with
    | nil => exact .nil
    | cons t ts ih =>
      cases hk : t.kind.isTrivia with
      | true =>
        have e : sig (t :: ts) = sig ts := by simp [sig, hk]
        rw [e]
        exact .skip _ _ _ ((silent_iff _).2 hk) ih
      | false =>
        have e : sig (t :: ts) = t :: sig ts := by simp [sig, hk]
        rw [e]
        exact .keep _ _ _ (by rw [silent_iff, hk]; simp) ih

theorem reads_iff (src : List Char) (ws : List (TokKind × List Char)) : Reads src ws ↔ (sig (lex src)).map Tok.key = ws := by
  constructor
  · rintro ⟨ts, h1, h2⟩
    rw [tokens_unique (lex_tokens src) h1]
    exact (words_iff _ _).1 h2
  · intro h
    exact ⟨_, lex_tokens src, (words_iff _ _).2 h⟩

end Script
end Verif
