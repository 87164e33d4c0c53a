import Verif.Proofs.ScriptCompile

/-!
# The positions of errors and their descriptions
-/

set_option linter.unusedSimpArgs false
set_option linter.unusedVariables false

namespace Verif
namespace Script
open ScriptSpec

/-! ## Errors of the parser are at tokens -/

/-- All tokens of the state and all errors so far are from `toks`. -/
structure Sane (toks : List Tok) (p : PState) : Prop where
  all : p.all = toks
  rest : ∀ t ∈ p.rest, t ∈ toks
  errs : ∀ e, Event.error e ∈ p.events → ∃ t ∈ toks, e.span = t.range

variable {toks : List Tok} {p q : PState}

theorem Sane.skip (h : Sane toks p) : Sane toks p.skip :=
  ⟨h.all, fun t ht => h.rest t ((List.dropWhile_suffix _).subset ht), h.errs⟩

theorem Sane.sees (h : Sane toks p) (k : TokKind) : Sane toks (p.sees k).2 :=
  ⟨h.all, h.skip.rest, h.errs⟩

theorem Sane.atEnd (h : Sane toks p) : Sane toks p.atEnd.2 := h.skip

theorem Sane.bump (h : Sane toks p) (e : p.bump = .ok q) : Sane toks q := by
  unfold PState.bump at e
  split at e
  · cases e
  · rename_i t r hr
    cases e
    refine ⟨h.all, fun t ht => h.skip.rest t (by rw [hr]; exact List.mem_cons_of_mem _ ht), fun e he => ?_⟩
    rcases List.mem_append.1 he with he | he
    · exact h.errs e he
    · simp at he

theorem Sane.start (h : Sane toks p) : Sane toks p.start.2 := by
  refine ⟨h.all, h.rest, fun e he => ?_⟩
  rcases List.mem_append.1 he with he | he
  · exact h.errs e he
  · simp at he

theorem Sane.complete (h : Sane toks p) {pos m : Nat} {k : SynKind} (e : p.complete pos k = .ok (m, q)) : Sane toks q := by
  unfold PState.complete at e
  split at e
  · cases e
    refine ⟨h.all, h.rest, fun e he => ?_⟩
    rcases List.mem_append.1 he with he | he
    · rcases List.mem_or_eq_of_mem_set he with he | he
      · exact h.errs e he
      · cases he
    · simp at he
  · cases e

theorem Sane.precede (h : Sane toks p) {pos m : Nat} (e : p.precede pos = .ok (m, q)) : Sane toks q := by
  unfold PState.precede at e
  simp only at e
  split at e
  · cases e
    refine ⟨h.all, h.rest, fun e he => ?_⟩
    rcases List.mem_or_eq_of_mem_set he with he | he
    · exact h.start.errs e he
    · cases he
  · cases e

theorem Sane.pushError (h : Sane toks p) (e : p.pushError = .ok q) : Sane toks q := by
  unfold PState.pushError at e
  simp only at e
  split at e
  · rename_i t r hr
    cases e
    refine ⟨h.all, h.skip.rest, fun e he => ?_⟩
    rcases List.mem_append.1 he with he | he
    · exact h.errs e he
    · simp only [List.mem_singleton, Event.error.injEq] at he
      subst he
      exact ⟨t, h.skip.rest t (by rw [hr]; exact List.mem_cons_self ..), rfl⟩
  · rename_i t hr hl
    cases e
    refine ⟨h.all, h.skip.rest, fun e he => ?_⟩
    rcases List.mem_append.1 he with he | he
    · exact h.errs e he
    · simp only [List.mem_singleton, Event.error.injEq] at he
      subst he
      refine ⟨t, ?_, rfl⟩
      rw [← h.all]
      exact List.mem_of_getLast? hl
  · cases e

theorem Sane.skipToken (h : Sane toks p) (e : p.skipToken = .ok q) : Sane toks q := by
  unfold PState.skipToken at e
  simp only at e
  split at e
  · cases e; exact h.atEnd
  · obtain ⟨p1, h1, e⟩ := Outcome.bind_eq_ok.1 e
    obtain ⟨⟨m, p2⟩, h2, e⟩ := Outcome.bind_eq_ok.1 e
    cases e
    exact (h.atEnd.start.bump h1).complete h2

theorem Sane.error (h : Sane toks p) (e : p.error = .ok q) : Sane toks q := by
  obtain ⟨p1, h1, e⟩ := Outcome.bind_eq_ok.1 e
  exact (h.pushError h1).skipToken e

theorem Sane.expect (h : Sane toks p) {k : TokKind} (e : p.expect k = .ok q) : Sane toks q := by
  unfold PState.expect at e
  simp only at e
  split at e
  · exact (h.sees k).bump e
  · exact (h.sees k).error e

theorem Sane.atom (h : Sane toks p) {k : TokKind} {m : Nat} (e : p.atom k = .ok (m, q)) : Sane toks q := by
  unfold PState.atom at e
  simp only at e
  split at e
  · obtain ⟨p1, h1, e⟩ := Outcome.bind_eq_ok.1 e
    exact ((h.sees k).start.bump h1).complete e
  · cases e

theorem Sane.operator (h : Sane toks p) : Sane toks p.operator.2 := by
  unfold PState.operator
  simp only
  split
  · exact h.sees _
  · split
    · exact (h.sees _).sees _
    · split
      · exact ((h.sees _).sees _).sees _
      · split
        · exact (((h.sees _).sees _).sees _).sees _
        · exact (((h.sees _).sees _).sees _).sees _

theorem sane_exprs (n : Nat) :
    (∀ min (p q : PState) r, Sane toks p → p.expr n min = .ok (r, q) → Sane toks q) ∧
    (∀ min pos (p q : PState) r, Sane toks p → p.infixLoop n min pos = .ok (r, q) → Sane toks q) ∧
    (∀ (p q : PState) r, Sane toks p → p.lhs n = .ok (r, q) → Sane toks q) ∧
    (∀ (p q : PState) r, Sane toks p → p.prefixExpr n = .ok (r, q) → Sane toks q) ∧
    (∀ (p q : PState) r, Sane toks p → p.parenExpr n = .ok (r, q) → Sane toks q) := by
  induction n with
  | zero =>
    refine ⟨?_, ?_, ?_, ?_, ?_⟩ <;> intros <;> rename_i h <;> cases h
  | succ n ih =>
    obtain ⟨iE, iI, iL, iP, iQ⟩ := ih
    refine ⟨?_, ?_, ?_, ?_, ?_⟩
    · intro min p q r h e
      rw [PState.expr.eq_def] at e
      obtain ⟨⟨l, p1⟩, h1, e⟩ := Outcome.bind_eq_ok.1 e
      have s1 := iL _ _ _ h h1
      cases l with
      | none => cases e; exact s1
      | some pos => exact iI _ _ _ _ _ s1 e
    · intro min pos p q r h e
      rw [PState.infixLoop.eq_def] at e
      simp only at e
      split at e
      · cases e; exact h.operator
      · split at e
        · cases e; exact h.operator
        · obtain ⟨p1, h1, e⟩ := Outcome.bind_eq_ok.1 e
          obtain ⟨⟨m, p2⟩, h2, e⟩ := Outcome.bind_eq_ok.1 e
          obtain ⟨⟨r3, p3⟩, h3, e⟩ := Outcome.bind_eq_ok.1 e
          obtain ⟨⟨pos4, p4⟩, h4, e⟩ := Outcome.bind_eq_ok.1 e
          have s4 := (iE _ _ _ _ ((h.operator.bump h1).precede h2) h3).complete h4
          simp only at e
          split at e
          · exact iI _ _ _ _ _ s4 e
          · cases e; exact s4
    · intro p q r h e
      rw [PState.lhs.eq_def] at e
      simp only at e
      split at e
      · obtain ⟨⟨m, p1⟩, h1, e⟩ := Outcome.bind_eq_ok.1 e
        cases e; exact (h.sees _).atom h1
      split at e
      · obtain ⟨⟨m, p1⟩, h1, e⟩ := Outcome.bind_eq_ok.1 e
        cases e; exact ((h.sees _).sees _).atom h1
      split at e
      · obtain ⟨⟨m, p1⟩, h1, e⟩ := Outcome.bind_eq_ok.1 e
        cases e; exact (((h.sees _).sees _).sees _).atom h1
      split at e
      · exact iP _ _ _ ((((h.sees _).sees _).sees _).sees _) e
      split at e
      · exact iQ _ _ _ (((((h.sees _).sees _).sees _).sees _).sees _) e
      · obtain ⟨p1, h1, e⟩ := Outcome.bind_eq_ok.1 e
        cases e; exact (((((h.sees _).sees _).sees _).sees _).sees _).error h1
    · intro p q r h e
      rw [PState.prefixExpr.eq_def] at e
      simp only at e
      split at e
      · obtain ⟨p1, h1, e⟩ := Outcome.bind_eq_ok.1 e
        obtain ⟨⟨m, p2⟩, h2, e⟩ := Outcome.bind_eq_ok.1 e
        obtain ⟨⟨r3, p3⟩, h3, e⟩ := Outcome.bind_eq_ok.1 e
        cases e
        exact (iE _ _ _ _ ((h.sees _).start.bump h1) h2).complete h3
      · cases e
    · intro p q r h e
      rw [PState.parenExpr.eq_def] at e
      simp only at e
      split at e
      · obtain ⟨p1, h1, e⟩ := Outcome.bind_eq_ok.1 e
        obtain ⟨⟨m, p2⟩, h2, e⟩ := Outcome.bind_eq_ok.1 e
        obtain ⟨p3, h3, e⟩ := Outcome.bind_eq_ok.1 e
        obtain ⟨⟨r4, p4⟩, h4, e⟩ := Outcome.bind_eq_ok.1 e
        cases e
        exact ((iE _ _ _ _ ((h.sees _).start.bump h1) h2).expect h3).complete h4
      · cases e

theorem Sane.stmt (h : Sane toks p) {n : Nat} (e : p.stmt n = .ok q) : Sane toks q := by
  unfold PState.stmt at e
  simp only at e
  split at e
  · unfold PState.variableDef at e
    simp only at e
    split at e
    · obtain ⟨p1, h1, e⟩ := Outcome.bind_eq_ok.1 e
      obtain ⟨p2, h2, e⟩ := Outcome.bind_eq_ok.1 e
      obtain ⟨p3, h3, e⟩ := Outcome.bind_eq_ok.1 e
      obtain ⟨⟨r4, p4⟩, h4, e⟩ := Outcome.bind_eq_ok.1 e
      obtain ⟨⟨r5, p5⟩, h5, e⟩ := Outcome.bind_eq_ok.1 e
      cases e
      exact ((sane_exprs n).1 _ _ _ _ (((((h.sees _).sees _).start.bump h1).expect h2).expect h3) h4).complete h5
    · cases e
  · obtain ⟨⟨r4, p4⟩, h4, e⟩ := Outcome.bind_eq_ok.1 e
    cases e
    exact (sane_exprs n).1 _ _ _ _ (h.sees _) h4

theorem Sane.stmts {k n : Nat} : ∀ {p q : PState}, Sane toks p → p.stmts k n = .ok q → Sane toks q := by
  induction k with
  | zero => intro p q _ e; cases e
  | succ k ih =>
    intro p q h e
    rw [PState.stmts] at e
    simp only at e
    split at e
    · cases e; exact h.atEnd
    · obtain ⟨p1, h1, e⟩ := Outcome.bind_eq_ok.1 e
      exact ih (h.atEnd.stmt h1) e

theorem parseEvents_errors (evs : List Event) (h : parseEvents toks = .ok evs) (e : ParseErr) (he : Event.error e ∈ evs) :
    ∃ t ∈ toks, e.span = t.range := by
  obtain ⟨p, h1, h2⟩ := Outcome.bind_eq_ok.1 h
  cases h2
  unfold PState.rootNode at h1
  simp only at h1
  obtain ⟨p1, h3, h4⟩ := Outcome.bind_eq_ok.1 h1
  obtain ⟨⟨m, p2⟩, h5, h6⟩ := Outcome.bind_eq_ok.1 h4
  cases h6
  have s0 : Sane toks ⟨toks, toks, [], []⟩ := ⟨rfl, fun t ht => ht, fun e he => by simp at he⟩
  exact ((s0.start.stmts h3).complete h5).errs e he

/-! ## The sink keeps them -/

theorem walk_errors (n : Nat) : ∀ (i : Nat) (o : Option Nat) (evs evs' : List Event) (ks : List SynKind),
    Sink.walk n i o evs = .ok (ks, evs') → ∀ e, Event.error e ∈ evs' → Event.error e ∈ evs := by
  induction n with
  | zero =>
    intro i o evs evs' ks h e he
    cases o with
    | none => cases h; exact he
    | some f => cases h
  | succ n ih =>
    intro i o evs evs' ks h e he
    cases o with
    | none => cases h; exact he
    | some f =>
      rw [Sink.walk] at h
      split at h
      · cases h
      · split at h
        · obtain ⟨⟨ks1, evs1⟩, h1, h2⟩ := Outcome.bind_eq_ok.1 h
          cases h2
          have := ih _ _ _ _ _ h1 e he
          rcases List.mem_or_eq_of_mem_set this with h | h
          · exact h
          · cases h
        · cases h

theorem open_errors (s : Sink) (ks : List SynKind) : (s.open_ ks).errors = s.errors := by
  induction ks generalizing s with
  | nil => rfl
  | cons k ks ih => rw [Sink.open_, ih]

theorem run_errors (n : Nat) : ∀ (evs : List Event) (s s' : Sink), Sink.run n evs s = .ok s' →
    ∀ e ∈ s'.errors, e ∈ s.errors ∨ Event.error e ∈ evs := by
  induction n with
  | zero =>
    intro evs s s' h e he
    cases evs with
    | nil => cases h; exact .inl he
    | cons a evs => cases h
  | succ n ih =>
    intro evs s s' h e he
    cases evs with
    | nil => cases h; exact .inl he
    | cons a evs =>
      rw [Sink.run] at h
      obtain ⟨⟨s1, evs1⟩, h1, h2⟩ := Outcome.bind_eq_ok.1 h
      have h3 := ih _ _ _ h2 e he
      have key : (∀ e ∈ s1.errors, e ∈ s.errors ∨ Event.error e = a) ∧ (∀ e, Event.error e ∈ evs1 → Event.error e ∈ evs) := by
        cases a with
        | startNode k fp =>
          obtain ⟨⟨ks, evs2⟩, h4, h5⟩ := Outcome.bind_eq_ok.1 h1
          cases h5
          exact ⟨fun e he => .inl (by rw [open_errors] at he; exact he), walk_errors _ _ _ _ _ _ h4⟩
        | addToken =>
          obtain ⟨s2, h4, h5⟩ := Outcome.bind_eq_ok.1 h1
          cases h5
          unfold Sink.token at h4
          split at h4
          · cases h4
          · cases h4; exact ⟨fun e he => .inl he, fun e he => he⟩
        | finishNode =>
          obtain ⟨s2, h4, h5⟩ := Outcome.bind_eq_ok.1 h1
          cases h5
          unfold Sink.close at h4
          split at h4
          · cases h4
          · cases h4; exact ⟨fun e he => .inl he, fun e he => he⟩
        | error x =>
          cases h1
          refine ⟨fun e he => ?_, fun e he => he⟩
          rcases List.mem_append.1 he with he | he
          · exact .inl he
          · simp at he; subst he; exact .inr rfl
        | placeholder => cases h1; exact ⟨fun e he => .inl he, fun e he => he⟩
      rcases h3 with h3 | h3
      · rcases key.1 e h3 with h4 | h4
        · exact .inl h4
        · exact .inr (by rw [h4]; exact List.mem_cons_self ..)
      · exact .inr (List.mem_cons_of_mem _ (key.2 e h3))

/-- Every error of the parser is at a token of the text. -/
theorem parse_errors (src : List Char) (g : Green) (errs : List ParseErr) (h : parse src = .ok (g, errs)) (e : ParseErr) (he : e ∈ errs) :
    ∃ t ∈ lex src, e.span = t.range := by
  obtain ⟨evs, h1, h2⟩ := Outcome.bind_eq_ok.1 h
  obtain ⟨s, h3, h4⟩ := Outcome.bind_eq_ok.1 h2
  unfold Sink.result at h4
  split at h4
  · cases h4
    rcases run_errors _ _ _ _ h3 e he with h | h
    · simp at h
    · exact parseEvents_errors _ h1 e h
  · cases h4

/-- A token covers a part of the text. -/
theorem tokens_cover {pos : Nat} {input : List Char} {ts : List Tok} (h : Tokens pos input ts) :
    ∀ t ∈ ts, ∃ pre post, input = pre ++ t.text ++ post ∧ t.start = pos + bytes pre ∧ t.text ≠ [] := by
  induction h with
  | nil => simp
  | cons pos input k t rest ts h hr ih =>
    intro x hx
    rcases List.mem_cons.1 hx with rfl | hx
    · refine ⟨[], rest, by simpa using h.1, by simp [bytes], ?_⟩
      intro ht
      have ht : t = [] := ht
      subst ht
      rcases h.2 with ⟨a, b, _⟩ | ⟨_, a, _⟩
      · obtain ⟨c, s, h1, _⟩ := lexOne_self _ _ a b
        cases h1
      · simp at a
    · obtain ⟨pre, post, h1, h2, h3⟩ := ih x hx
      refine ⟨t ++ pre, post, by rw [h.1, h1]; simp, ?_, h3⟩
      rw [h2, bytes, bytes, bytes, List.map_append, List.sum_append]; omega

/-! ## Lines -/

theorem utf8Size_pos (c : Char) : 0 < c.utf8Size := Char.utf8Size_pos c

theorem countBefore_append (pre post : List Char) (i : Nat) :
    lineOf.countBefore (pre ++ post) (textLen pre + i) = pre.count '\n' + lineOf.countBefore post i := by
  induction pre with
  | nil => simp [textLen]
  | cons c pre ih =>
    have hc := utf8Size_pos c
    rw [List.cons_append, lineOf.countBefore, if_neg (by simp only [textLen]; omega)]
    have : textLen (c :: pre) + i - c.utf8Size = textLen pre + i := by simp only [textLen]; omega
    rw [this, ih, List.count_cons]
    by_cases h : c = '\n'
    · simp [h]; omega
    · simp [h]

/-- The line feeds before the last byte of a text that is not empty. -/
theorem countBefore_last (pre : List Char) (c : Char) (post : List Char) :
    lineOf.countBefore (pre ++ c :: post) (textLen (pre ++ [c]) - 1) = pre.count '\n' := by
  have hc := utf8Size_pos c
  have h1 : textLen (pre ++ [c]) - 1 = textLen pre + (c.utf8Size - 1) := by
    rw [textLen_append]; simp only [textLen]; omega
  rw [h1, countBefore_append, lineOf.countBefore]
  by_cases h : c.utf8Size - 1 = 0
  · rw [if_pos h]; rfl
  · rw [if_neg h]
    have hn : c ≠ '\n' := by
      rintro rfl
      exact h (by decide)
    rw [if_neg hn]
    have : c.utf8Size - 1 - c.utf8Size = 0 := by omega
    rw [this]
    cases post <;> simp [lineOf.countBefore]

theorem countBefore_mono (s : List Char) (i j : Nat) (h : i ≤ j) : lineOf.countBefore s i ≤ lineOf.countBefore s j := by
  induction s generalizing i j with
  | nil => simp [lineOf.countBefore]
  | cons c s ih =>
    simp only [lineOf.countBefore]
    by_cases hi : i = 0
    · rw [if_pos hi]; omega
    · have hj : ¬ j = 0 := by omega
      rw [if_neg hi, if_neg hj]
      have := ih (i - c.utf8Size) (j - c.utf8Size) (by omega)
      omega

theorem lineCount_gt (s : List Char) (i : Nat) (h : i < textLen s) : lineOf.countBefore s i + 1 ≤ lineCount s := by
  induction s generalizing i with
  | nil => simp [textLen] at h
  | cons c s ih =>
    cases s with
    | nil =>
      simp only [lineOf.countBefore, lineCount]
      by_cases hi : i = 0
      · rw [if_pos hi]
      · rw [if_neg hi]
        have hn : c ≠ '\n' := by
          rintro rfl
          simp only [textLen] at h
          have : ('\n' : Char).utf8Size = 1 := by decide
          omega
        rw [if_neg hn]
    | cons d s =>
      have h0 := ih 0 (by have := utf8Size_pos d; simp only [textLen]; omega)
      rw [lineCount, lineOf.countBefore]
      by_cases hi : i = 0
      · rw [if_pos hi]; omega
      · rw [if_neg hi]
        have hd := utf8Size_pos d
        by_cases hc : i < c.utf8Size
        · have : i - c.utf8Size = 0 := by omega
          rw [this]
          omega
        · have := ih (i - c.utf8Size) (by simp only [textLen] at h ⊢; omega)
          omega

/-! ## Descriptions -/

/-- The position one before 0 is after the end of any text that fits the address space. -/
theorem prettyDesc_zero (checked : Bool) (src : List Char) (s : Span) (hs : textLen src < 2 ^ 64 - 1) (h : s.1 = 0) :
    prettyDesc checked src s = .panic := by
  unfold prettyDesc
  rw [h]
  cases checked with
  | true => rfl
  | false =>
    have e1 : lessOne false 0 = .ok (2 ^ 64 - 1) := rfl
    have e3 : lineOf src (2 ^ 64 - 1) = .panic := by unfold lineOf; rw [if_neg (by omega)]
    generalize 2 ^ 64 - 1 = N at *
    rw [e1, Outcome.bind_ok]
    unfold lessOne
    by_cases h2 : s.2 = 0
    · rw [if_pos h2, if_neg (by simp), Outcome.bind_ok, e3]; rfl
    · rw [if_neg h2, Outcome.bind_ok, e3]; rfl

theorem prettyDesc_pos (checked : Bool) (src : List Char) (s : Span) (h1 : 0 < s.1) (h2 : s.1 ≤ s.2) (h3 : s.2 ≤ textLen src) :
    prettyDesc checked src s = .ok (if lineOf.countBefore src (s.2 - 1) = lineOf.countBefore src (s.1 - 1)
      then some (lineOf.countBefore src (s.1 - 1) + 1) else none) := by
  have hl := lineCount_gt src (s.1 - 1) (by omega)
  unfold prettyDesc lessOne
  rw [if_neg (by omega), if_neg (by omega), Outcome.bind_ok, Outcome.bind_ok]
  unfold lineOf
  rw [if_pos (by omega), if_pos (by omega), Outcome.bind_ok, Outcome.bind_ok]
  by_cases h : lineOf.countBefore src (s.2 - 1) = lineOf.countBefore src (s.1 - 1)
  · rw [if_neg (by simp [h]), if_pos hl, if_pos h]; rfl
  · rw [if_pos (by simpa using h), if_neg h]; rfl

/-- The spans of an error. -/
def spansOf : CompileErr → List Span
  | .parse l => l.map ParseErr.span
  | .hir s | .binder s | .typeInfer s | .mir s => [s]
  | .typeCheck | .tree => []

theorem pretty_spec (checked : Bool) (src : List Char) (e : CompileErr) (hs : textLen src < 2 ^ 64 - 1)
    (h : ∀ s ∈ spansOf e, s.1 ≤ s.2 ∧ s.2 ≤ textLen src) :
    ((∃ s ∈ spansOf e, s.1 = 0) → e.pretty checked src = .panic) ∧ ((∀ s ∈ spansOf e, s.1 ≠ 0) → e.pretty checked src = .ok ()) := by
  have one : ∀ s : Span, s.1 ≤ s.2 → s.2 ≤ textLen src → s.1 ≠ 0 → ∃ b, prettyDesc checked src s = .ok b :=
    fun s h1 h2 h3 => ⟨_, prettyDesc_pos checked src s (by omega) h1 h2⟩
  have single : ∀ s : Span, s.1 ≤ s.2 ∧ s.2 ≤ textLen src →
      (s.1 = 0 → (do let _ ← prettyDesc checked src s; pure () : Outcome Unit) = .panic) ∧
      (s.1 ≠ 0 → (do let _ ← prettyDesc checked src s; pure () : Outcome Unit) = .ok ()) := by
    intro s h1
    refine ⟨fun h0 => ?_, fun h0 => ?_⟩
    · rw [prettyDesc_zero checked src s hs h0]; rfl
    · obtain ⟨b, hb⟩ := one s h1.1 h1.2 h0
      rw [hb]; rfl
  cases e with
  | parse l =>
    show (_ → CompileErr.pretty.descs checked src l = .panic) ∧ (_ → CompileErr.pretty.descs checked src l = .ok ())
    simp only [spansOf] at h ⊢
    induction l with
    | nil => exact ⟨fun ⟨s, h, _⟩ => by simp at h, fun _ => rfl⟩
    | cons e l ih =>
      have ih := ih (fun s hs => h s (List.mem_cons_of_mem _ hs))
      have he := h e.span (by simp)
      by_cases h0 : e.span.1 = 0
      · refine ⟨fun _ => ?_, fun hh => absurd h0 (hh _ (by simp))⟩
        rw [CompileErr.pretty.descs, prettyDesc_zero checked src _ hs h0]; rfl
      · obtain ⟨b, hb⟩ := one _ he.1 he.2 h0
        refine ⟨fun ⟨s, h1, h2⟩ => ?_, fun hh => ?_⟩
        · rw [CompileErr.pretty.descs, hb, Outcome.bind_ok]
          refine ih.1 ⟨s, ?_, h2⟩
          rcases List.mem_cons.1 h1 with rfl | h1
          · exact absurd h2 h0
          · exact h1
        · rw [CompileErr.pretty.descs, hb, Outcome.bind_ok]
          exact ih.2 (fun s hs => hh s (List.mem_cons_of_mem _ hs))
  | hir s =>
    have := single s (h s (by simp [spansOf]))
    exact ⟨fun ⟨x, h1, h2⟩ => this.1 (by simp [spansOf] at h1; subst h1; exact h2), fun hh => this.2 (hh s (by simp [spansOf]))⟩
  | binder s =>
    have := single s (h s (by simp [spansOf]))
    exact ⟨fun ⟨x, h1, h2⟩ => this.1 (by simp [spansOf] at h1; subst h1; exact h2), fun hh => this.2 (hh s (by simp [spansOf]))⟩
  | typeInfer s =>
    have := single s (h s (by simp [spansOf]))
    exact ⟨fun ⟨x, h1, h2⟩ => this.1 (by simp [spansOf] at h1; subst h1; exact h2), fun hh => this.2 (hh s (by simp [spansOf]))⟩
  | mir s =>
    have := single s (h s (by simp [spansOf]))
    exact ⟨fun ⟨x, h1, h2⟩ => this.1 (by simp [spansOf] at h1; subst h1; exact h2), fun hh => this.2 (hh s (by simp [spansOf]))⟩
  | typeCheck => exact ⟨fun ⟨s, h, _⟩ => by simp [spansOf] at h, fun _ => rfl⟩
  | tree => exact ⟨fun ⟨s, h, _⟩ => by simp [spansOf] at h, fun _ => rfl⟩

end Script
end Verif
