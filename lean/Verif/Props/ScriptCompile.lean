import Verif.Props.Script
import Verif.Proofs.ScriptMean
import Verif.Proofs.ScriptCost

/-!
# C86, C87: compiling ErgoScript
-/

namespace Verif
open Script ScriptSpec
open Spec (NumTy IsNum)
variable {G B T : Type}

/-! ## C86 -/

/-- The only statement of a program that is compiled is `x`. -/
def Main (src : List Char) (x : Ex) : Prop := ∃ ss, Program ss ∧ Reads src (words ss) ∧ ss.filterMap St.seen = [x]

/-- The expression is compiled: literals, `+` and `HEIGHT` only, `HEIGHT` at the top, operands of the same type. -/
def Fine (x : Ex) : Prop := x.Plain ∧ x.Sums ∧ x.Named ∧ x.Even

/-- A text has one program only, so one main expression. -/
theorem main_unique {src : List Char} {x y : Ex} (h : Main src x) (h' : Main src y) : x = y := by
  obtain ⟨ss, h1, h2, h3⟩ := h
  obtain ⟨ss', h1', h2', h3'⟩ := h'
  have := C85_unambiguous ss ss' h1 h1' (((reads_iff _ _).1 h2).symm.trans ((reads_iff _ _).1 h2'))
  subst this
  rw [h3] at h3'
  exact (List.cons.inj h3').1

/-- The outcomes of `compile_expr`, one for each text. -/
theorem compile_cases (src : List Char) :
    ((¬ ∃ ss, Program ss ∧ Reads src (words ss)) ∧
      ∃ errs, errs ≠ [] ∧ compileExpr src (ScriptEnv.new : ScriptEnv G B) = .err (.parse errs) ∧
        ∀ e ∈ errs, e.span.1 < e.span.2 ∧ e.span.2 ≤ bytes src) ∨
    ((∃ ss, Program ss ∧ Reads src (words ss)) ∧ (¬ ∃ x, Main src x) ∧
      compileExpr src (ScriptEnv.new : ScriptEnv G B) = .err (.hir (0, bytes src))) ∨
    ∃ x, Main src x ∧
      ((¬ x.Plain ∧ ∃ s, compileExpr src (ScriptEnv.new : ScriptEnv G B) = .err (.hir s) ∧ s.1 ≤ s.2 ∧ s.2 ≤ bytes src) ∨
       (x.Plain ∧ ¬ x.Sums ∧ compileExpr src (ScriptEnv.new : ScriptEnv G B) = .panic) ∨
       (x.Plain ∧ x.Sums ∧ ¬ x.Named ∧ ∃ s, compileExpr src (ScriptEnv.new : ScriptEnv G B) = .err (.mir s) ∧ s.1 ≤ s.2 ∧ s.2 ≤ bytes src) ∨
       (x.Plain ∧ x.Sums ∧ x.Named ∧ ¬ x.Even ∧ compileExpr src (ScriptEnv.new : ScriptEnv G B) = .err .typeCheck) ∨
       (Fine x ∧ ∃ e, compileExpr src (ScriptEnv.new : ScriptEnv G B) = .ok e ∧ x.target = some e)) := by
  have hb := textLen_eq src
  by_cases hp : ∃ ss, Program ss ∧ Reads src (words ss)
  swap
  · refine .inl ⟨hp, ?_⟩
    obtain ⟨f, errs, h1, _⟩ := parse_text src
    have hne : errs ≠ [] := by
      rintro rfl
      exact hp ((C85_accepts src).1 ⟨_, h1⟩)
    refine ⟨errs, hne, ?_, ?_⟩
    · unfold compileExpr compileHir
      rw [h1]
      cases errs with
      | nil => exact absurd rfl hne
      | cons e errs => rfl
    · intro e he
      obtain ⟨pre, mid, post, h2, h3, h4⟩ := C85_errors src _ errs h1 e he
      rw [h4, h2]
      have : 0 < bytes mid := by
        cases mid with
        | nil => exact absurd rfl h3
        | cons c mid => have := Char.utf8Size_pos c; simp only [bytes, List.map_cons, List.sum_cons]; omega
      simp only [bytes, List.map_append, List.sum_append] at this ⊢
      omega
  right
  obtain ⟨ss, h1, h2⟩ := hp
  have hs := compileHir_spec src ss h1 h2
  by_cases hm : ∃ x, Main src x
  swap
  · refine .inl ⟨⟨ss, h1, h2⟩, hm, ?_⟩
    split at hs
    · rename_i x hx
      exact absurd ⟨x, ss, h1, h2, hx⟩ hm
    · unfold compileExpr
      rw [hs, Comp.err_bind, hb]
  right
  obtain ⟨x, hx⟩ := hm
  have hx' := hx
  obtain ⟨ss', h1', h2', h3⟩ := hx'
  have := C85_unambiguous ss ss' h1 h1' (((reads_iff _ _).1 h2).symm.trans ((reads_iff _ _).1 h2'))
  subst this
  rw [h3] at hs
  refine ⟨x, hx, ?_⟩
  simp only at hs
  cases hh : hirOf x with
  | none =>
    left
    rw [hh] at hs
    obtain ⟨s, h4, h5⟩ := hs
    refine ⟨fun hp => ?_, s, ?_, h5.2.1, by rw [← hb]; exact h5.2.2⟩
    · obtain ⟨h, e⟩ := (hirOf_plain x).2 hp
      rw [hh] at e; cases e
    · unfold compileExpr
      rw [h4, Comp.err_bind]
  | some h0 =>
    right
    have hpl : x.Plain := (hirOf_plain x).1 ⟨h0, hh⟩
    rw [hh] at hs
    obtain ⟨h, h4, h5, h6⟩ := hs
    have hr := rep_of_bare x h (by rw [hh, h5])
    have hc : compileExpr src (ScriptEnv.new : ScriptEnv G B) = compileFrom ScriptEnv.new h := by
      unfold compileExpr
      rw [h4, Comp.ok_bind]
    rw [hc]
    obtain ⟨c1, c2, c3, c4⟩ := compileFrom_spec (G := G) (B := B) x h hr 0 (textLen src) h6
    by_cases k1 : x.Sums
    swap
    · exact .inl ⟨hpl, k1, c1 k1⟩
    by_cases k2 : x.Named
    swap
    · obtain ⟨s, e1, e2⟩ := c2 k1 k2
      exact .inr (.inl ⟨hpl, k1, k2, s, e1, e2.2.1, by rw [← hb]; exact e2.2.2⟩)
    by_cases k3 : x.Even
    swap
    · exact .inr (.inr (.inl ⟨hpl, k1, k2, k3, c3 k1 k2 k3⟩))
    · exact .inr (.inr (.inr ⟨⟨hpl, k1, k2, k3⟩, c4 k1 k2 k3⟩))

/-- C86: which texts are compiled, and to what: exactly those with one statement that counts, which is a sum of literals and `HEIGHT`
(`HEIGHT` not deeper than the outermost operator), and whose two operands begin with numbers of the same type. -/
theorem C86_compiles (src : List Char) (e : Expr G B) :
    compileExpr src (ScriptEnv.new : ScriptEnv G B) = .ok e ↔ ∃ x, Main src x ∧ Fine x ∧ x.target = some e := by
  constructor
  · intro h
    rcases compile_cases (G := G) (B := B) src with ⟨_, errs, _, h1, _⟩ | ⟨_, _, h1⟩ | ⟨x, hm, h1 | h1 | h1 | h1 | h1⟩
    · rw [h] at h1; cases h1
    · rw [h] at h1; cases h1
    · obtain ⟨_, s, h1, _⟩ := h1; rw [h] at h1; cases h1
    · rw [h] at h1; cases h1.2.2
    · obtain ⟨_, _, _, s, h1, _⟩ := h1; rw [h] at h1; cases h1
    · rw [h] at h1; cases h1.2.2.2.2
    · obtain ⟨hf, e', h1, h2⟩ := h1
      rw [h] at h1; cases h1
      exact ⟨x, hm, hf, h2⟩
  · rintro ⟨x, hm, hf, ht⟩
    rcases compile_cases (G := G) (B := B) src with ⟨h0, _⟩ | ⟨_, h0, _⟩ | ⟨y, hm', h1⟩
    · obtain ⟨ss, h1, h2, _⟩ := hm
      exact absurd ⟨ss, h1, h2⟩ h0
    · exact absurd ⟨x, hm⟩ h0
    · cases main_unique hm hm'
      rcases h1 with h1 | h1 | h1 | h1 | h1
      · exact absurd hf.1 h1.1
      · exact absurd hf.2.1 h1.2.1
      · exact absurd hf.2.2.1 h1.2.2.1
      · exact absurd hf.2.2.2 h1.2.2.2.1
      · obtain ⟨_, e', h1, h2⟩ := h1
        rw [ht] at h2; cases h2
        exact h1

/-- C86: which texts make the compiler panic: those with an operator other than `+`. -/
theorem C86_panics (src : List Char) :
    compileExpr src (ScriptEnv.new : ScriptEnv G B) = .panic ↔ ∃ x, Main src x ∧ x.Plain ∧ ¬ x.Sums := by
  constructor
  · intro h
    rcases compile_cases (G := G) (B := B) src with ⟨_, errs, _, h1, _⟩ | ⟨_, _, h1⟩ | ⟨x, hm, h1 | h1 | h1 | h1 | h1⟩
    · rw [h] at h1; cases h1
    · rw [h] at h1; cases h1
    · obtain ⟨_, s, h1, _⟩ := h1; rw [h] at h1; cases h1
    · exact ⟨x, hm, h1.1, h1.2.1⟩
    · obtain ⟨_, _, _, s, h1, _⟩ := h1; rw [h] at h1; cases h1
    · rw [h] at h1; cases h1.2.2.2.2
    · obtain ⟨hf, e', h1, h2⟩ := h1
      rw [h] at h1; cases h1
  · rintro ⟨x, hm, hp, hs⟩
    rcases compile_cases (G := G) (B := B) src with ⟨h0, _⟩ | ⟨_, h0, _⟩ | ⟨y, hm', h1⟩
    · obtain ⟨ss, h1, h2, _⟩ := hm
      exact absurd ⟨ss, h1, h2⟩ h0
    · exact absurd ⟨x, hm⟩ h0
    · cases main_unique hm hm'
      rcases h1 with h1 | h1 | h1 | h1 | h1
      · exact absurd hp h1.1
      · exact h1.2.2
      · exact absurd h1.2.1 hs
      · exact absurd h1.2.1 hs
      · exact absurd h1.1.2.1 hs

/-- C86: the errors: of the parser for texts that are no program, of lowering for programs with no or several statements that count,
with signs, parentheses or literals out of range, of `mir::lower` for names, of the type check for operands that begin with numbers
of different types. -/
theorem C86_errors (src : List Char) :
    ((∃ errs, compileExpr src (ScriptEnv.new : ScriptEnv G B) = .err (.parse errs)) ↔ ¬ ∃ ss, Program ss ∧ Reads src (words ss)) ∧
    ((∃ s, compileExpr src (ScriptEnv.new : ScriptEnv G B) = .err (.hir s)) ↔
      (∃ ss, Program ss ∧ Reads src (words ss)) ∧ ∀ x, Main src x → ¬ x.Plain) ∧
    ((∃ s, compileExpr src (ScriptEnv.new : ScriptEnv G B) = .err (.mir s)) ↔ ∃ x, Main src x ∧ x.Plain ∧ x.Sums ∧ ¬ x.Named) ∧
    (compileExpr src (ScriptEnv.new : ScriptEnv G B) = .err .typeCheck ↔
      ∃ x, Main src x ∧ x.Plain ∧ x.Sums ∧ x.Named ∧ ¬ x.Even) := by
  have prog : ∀ {x}, Main src x → ∃ ss, Program ss ∧ Reads src (words ss) := fun ⟨ss, h1, h2, _⟩ => ⟨ss, h1, h2⟩
  rcases compile_cases (G := G) (B := B) src with ⟨h0, errs, _, h1, _⟩ | ⟨h0, hm, h1⟩ | ⟨y, hm, h1⟩
  · rw [h1]
    refine ⟨⟨fun _ => h0, fun _ => ⟨_, rfl⟩⟩, ⟨(fun ⟨s, h⟩ => by cases h), fun h => absurd h.1 h0⟩,
      ⟨(fun ⟨s, h⟩ => by cases h), fun ⟨x, h, _⟩ => absurd (prog h) h0⟩,
      ⟨(fun h => by cases h), fun ⟨x, h, _⟩ => absurd (prog h) h0⟩⟩
  · rw [h1]
    refine ⟨⟨(fun ⟨s, h⟩ => by cases h), fun h => absurd h0 h⟩, ⟨fun _ => ⟨h0, fun x hx => absurd ⟨x, hx⟩ hm⟩, fun _ => ⟨_, rfl⟩⟩,
      ⟨(fun ⟨s, h⟩ => by cases h), fun ⟨x, h, _⟩ => absurd ⟨x, h⟩ hm⟩,
      ⟨(fun h => by cases h), fun ⟨x, h, _⟩ => absurd ⟨x, h⟩ hm⟩⟩
  · have uniq : ∀ {x}, Main src x → x = y := fun h => main_unique h hm
    rcases h1 with ⟨k1, s, e, _⟩ | ⟨k1, k2, e⟩ | ⟨k1, k2, k3, s, e, _⟩ | ⟨k1, k2, k3, k4, e⟩ | ⟨⟨k1, k2, k3, k4⟩, e', e, _⟩ <;> rw [e]
    · exact ⟨⟨(fun ⟨s, h⟩ => by cases h), fun h => absurd (prog hm) h⟩,
        ⟨fun _ => ⟨prog hm, fun x hx => by rw [uniq hx]; exact k1⟩, fun _ => ⟨_, rfl⟩⟩,
        ⟨(fun ⟨s, h⟩ => by cases h), fun ⟨x, h, h1, _⟩ => absurd (uniq h ▸ h1) k1⟩,
        ⟨(fun h => by cases h), fun ⟨x, h, h1, _⟩ => absurd (uniq h ▸ h1) k1⟩⟩
    · exact ⟨⟨(fun ⟨s, h⟩ => by cases h), fun h => absurd (prog hm) h⟩,
        ⟨(fun ⟨s, h⟩ => by cases h), fun h => absurd k1 (h.2 y hm)⟩,
        ⟨(fun ⟨s, h⟩ => by cases h), fun ⟨x, h, _, h1, _⟩ => absurd (uniq h ▸ h1) k2⟩,
        ⟨(fun h => by cases h), fun ⟨x, h, _, h1, _⟩ => absurd (uniq h ▸ h1) k2⟩⟩
    · exact ⟨⟨(fun ⟨s, h⟩ => by cases h), fun h => absurd (prog hm) h⟩,
        ⟨(fun ⟨s, h⟩ => by cases h), fun h => absurd k1 (h.2 y hm)⟩,
        ⟨fun _ => ⟨y, hm, k1, k2, k3⟩, fun _ => ⟨_, rfl⟩⟩,
        ⟨(fun h => by cases h), fun ⟨x, h, _, _, h1, _⟩ => absurd (uniq h ▸ h1) k3⟩⟩
    · exact ⟨⟨(fun ⟨s, h⟩ => by cases h), fun h => absurd (prog hm) h⟩,
        ⟨(fun ⟨s, h⟩ => by cases h), fun h => absurd k1 (h.2 y hm)⟩,
        ⟨(fun ⟨s, h⟩ => by cases h), fun ⟨x, h, _, _, h1⟩ => absurd k3 (uniq h ▸ h1)⟩,
        ⟨fun _ => ⟨y, hm, k1, k2, k3, k4⟩, fun _ => rfl⟩⟩
    · exact ⟨⟨(fun ⟨s, h⟩ => by cases h), fun h => absurd (prog hm) h⟩,
        ⟨(fun ⟨s, h⟩ => by cases h), fun h => absurd k1 (h.2 y hm)⟩,
        ⟨(fun ⟨s, h⟩ => by cases h), fun ⟨x, h, _, _, h1⟩ => absurd k3 (uniq h ▸ h1)⟩,
        ⟨(fun h => by cases h), fun ⟨x, h, _, _, _, h1⟩ => absurd k4 (uniq h ▸ h1)⟩⟩

/-- The text of a program whose only statement is `x`. -/
theorem main_of {src : List Char} {x : Ex} (hx : x.Ok) (hs : St.seen (.expr x) = some x)
    (hr : (sig (lex src)).map Tok.key = words [.expr x]) : Main src x :=
  ⟨[.expr x], ⟨hx, by simp⟩, (reads_iff _ _).2 hr, by simp [hs]⟩

example : Fine (.bin .plus (.ident HEIGHT) (.bin .plus (.int ['1']) (.int ['2']))) := by
  refine ⟨⟨trivial, ?_, ?_⟩, ⟨rfl, trivial, rfl, trivial, trivial⟩, ⟨.inl rfl, .inr ⟨trivial, trivial⟩⟩, rfl⟩
  · show decimal ['1'] < 2 ^ 31; decide
  · show decimal ['2'] < 2 ^ 31; decide

/-- A program that is compiled. -/
example : compileExpr "HEIGHT + 1".toList (ScriptEnv.new : ScriptEnv G B) =
    .ok (.bin .plus (.op .height []) (.const ⟨.int, .int 1⟩)) := by
  refine (C86_compiles _ _).2 ⟨.bin .plus (.ident HEIGHT) (.int ['1']), main_of ?_ rfl (by decide +kernel), ?_, rfl⟩
  · simp [Ex.Ok, Ex.level, prec]
  · refine ⟨⟨trivial, ?_⟩, ⟨rfl, trivial, trivial⟩, ⟨.inl rfl, .inr trivial⟩, rfl⟩
    show decimal ['1'] < 2 ^ 31; decide

/-- Operands of different types, and a parenthesis. -/
example : compileExpr "1 + 2L".toList (ScriptEnv.new : ScriptEnv G B) = .err .typeCheck ∧
    ∃ s, compileExpr "1 + (2)".toList (ScriptEnv.new : ScriptEnv G B) = .err (.hir s) := by
  constructor
  · refine (C86_errors _).2.2.2.2 ⟨.bin .plus (.int ['1']) (.long ['2', 'L']), main_of ?_ rfl (by decide +kernel), ?_, ?_, ?_, ?_⟩
    · simp [Ex.Ok, Ex.level, prec]
    · simp only [Ex.Plain]; decide
    · simp [Ex.Sums]
    · exact ⟨.inr trivial, .inr trivial⟩
    · simp [Ex.Even, Ex.headTy]
  · have hm : Main "1 + (2)".toList (.bin .plus (.int ['1']) (.paren (.int ['2']))) := by
      refine main_of ?_ rfl (by decide +kernel)
      simp [Ex.Ok, Ex.level, prec]
    refine (C86_errors _).2.1.2 ⟨?_, fun x hx => ?_⟩
    · obtain ⟨ss, h1, h2, _⟩ := hm
      exact ⟨ss, h1, h2⟩
    · rw [main_unique hx hm]
      exact fun h => h.2

section
variable [DecidableEq G] [DecidableEq B] [DecidableEq (Value G B)]

/-- C86 (partial): a compiled expression evaluates to what its main statement is worth, and to an error where that is worth nothing
(operands of different types, a sum that does not fit its type).  What is missing: the compiler drops other statements, parentheses
and signs, and it accepts sums with operands of different types, see the violations below. -/
theorem C86_meaning_partial (W : World G B T) (C : EvalCtx G B) (hC : C.limit = none) (src : List Char) (e : Expr G B)
    (h : compileExpr src (ScriptEnv.new : ScriptEnv G B) = .ok e) :
    ∃ x, Main src x ∧ ∃ N, ∀ n, N ≤ n → ∀ s : EvalSt G B,
      match x.worth C.height.toInt with
      | some (t, a) => ∃ v s', eval W C n e s = .ok (v, s') ∧ IsNum v t a
      | none => ∃ er, eval W C n e s = .err er := by
  obtain ⟨x, hm, _, ht⟩ := (C86_compiles src e).1 h
  exact ⟨x, hm, exDepth x, fun n hn s => mean W C hC x e ht n hn s⟩

/-- The worth of a sum. -/
example : (Ex.bin .plus (.ident HEIGHT) (.int "2147483646".toList)).worth 1 = some (.int, 2147483647) ∧
    (Ex.bin .plus (.ident HEIGHT) (.int "2147483646".toList)).worth 2 = none := by decide

omit [DecidableEq B] [DecidableEq (Value G B)] in
/-- C86: `compile` gives a tree with that expression: the constants are in its table. -/
theorem C86_tree (E : Sers G B T) {bwf : B → Prop} (hbox : Spec.BoxRoundTrips E.bc bwf) (hb : NonExp E.bc.parse)
    (M : Byte → Byte → Option FuncSig) (src : List Char) (e : Expr G B)
    (h : compileExpr src (ScriptEnv.new : ScriptEnv G B) = .ok e) (hn : (Spec.constsOf e).length ≤ 2 ^ 32 - 1) :
    ∃ t, compile E M src ScriptEnv.new = .ok t ∧ t.getConstants = some (Spec.constsOf e) ∧ t.proposition E M = .ok e := by
  obtain ⟨x, _, _, ht⟩ := (C86_compiles src e).1 h
  have hs := target_shape x e ht E.utf8 bwf ⟨[], false, M⟩ []
  obtain ⟨root, h1, _, _, _, h5⟩ := C42_new E hbox hb M (TreeHeader.v0 true) rfl e ⟨[], false, M⟩ rfl hs.1 hs.2.1 hn
  refine ⟨_, ?_, rfl, h5⟩
  unfold compile
  rw [h, Comp.ok_bind]
  have : ETree.ofExpr E M e = ETree.new E M (TreeHeader.v0 true) e := by
    unfold ETree.ofExpr
    split
    · split
      · rename_i hc; exact absurd hc (hs.2.2.2.2.2.2 _ rfl)
      · rfl
    · rfl
  rw [this, h1]

/-- A compiled tree. -/
example : ∃ t, compile toySers noMethods "HEIGHT + 1".toList ScriptEnv.new = .ok t ∧ t.getConstants = some [⟨.int, .int 1⟩] := by
  have h : compileExpr "HEIGHT + 1".toList (ScriptEnv.new : ScriptEnv (Fin 3) Empty) =
      .ok (.bin .plus (.op .height []) (.const ⟨.int, .int 1⟩)) := by
    refine (C86_compiles _ _).2 ⟨.bin .plus (.ident HEIGHT) (.int ['1']), main_of ?_ rfl (by decide +kernel), ?_, rfl⟩
    · simp [Ex.Ok, Ex.level, prec]
    · refine ⟨⟨trivial, ?_⟩, ⟨rfl, trivial, trivial⟩, ⟨.inl rfl, .inr trivial⟩, rfl⟩
      show decimal ['1'] < 2 ^ 31; decide
  obtain ⟨t, h1, h2, _⟩ := C86_tree toySers (bwf := fun _ => True) (fun b => b.elim) NonExp.fail noMethods _ _ h (by decide)
  exact ⟨t, h1, h2⟩

/-- C86, violated: no proposition ever comes out of a compiled script, whatever the context: a box with such a script cannot be
spent. -/
theorem C86_no_proposition_violates (W : World G B T) (C : EvalCtx G B) (src : List Char) (e : Expr G B)
    (h : compileExpr src (ScriptEnv.new : ScriptEnv G B) = .ok e) (n : Nat) (env : FMap (BitVec 32) (Value G B)) (p : SigmaBoolean G) :
    reduceToCrypto W C n e env ≠ .ok p := by
  obtain ⟨x, _, _, ht⟩ := (C86_compiles src e).1 h
  exact reduce_none W C x e ht n env p
end

/-- C86, violated: `1 - 2`, `2 * 3` and `4 / 2` make the compiler panic. -/
theorem C86_operators_violate :
    compileExpr "1 - 2".toList (ScriptEnv.new : ScriptEnv G B) = .panic ∧
    compileExpr "2 * 3".toList (ScriptEnv.new : ScriptEnv G B) = .panic ∧
    compileExpr "4 / 2".toList (ScriptEnv.new : ScriptEnv G B) = .panic := by
  refine ⟨(C86_panics _).2 ⟨.bin .minus (.int ['1']) (.int ['2']), main_of ?_ rfl (by decide +kernel), ?_, ?_⟩,
    (C86_panics _).2 ⟨.bin .multiply (.int ['2']) (.int ['3']), main_of ?_ rfl (by decide +kernel), ?_, ?_⟩,
    (C86_panics _).2 ⟨.bin .divide (.int ['4']) (.int ['2']), main_of ?_ rfl (by decide +kernel), ?_, ?_⟩⟩ <;>
  first
  | (simp [Ex.Ok, Ex.level, prec]; done)
  | (simp [Ex.Sums]; done)
  | (simp only [Ex.Plain]; decide)

/-- C86, violated: statements that begin with a parenthesis or a sign, and definitions, are dropped: both of these are compiled to
`HEIGHT`. -/
theorem C86_dropped_violates :
    compileExpr "(1) HEIGHT".toList (ScriptEnv.new : ScriptEnv G B) = .ok (.op .height []) ∧
    compileExpr "val HEIGHT = 5 HEIGHT".toList (ScriptEnv.new : ScriptEnv G B) = .ok (.op .height []) := by
  have hf : Fine (.ident HEIGHT) := ⟨trivial, trivial, .inl rfl, trivial⟩
  constructor
  · refine (C86_compiles _ _).2 ⟨.ident HEIGHT, ⟨[.expr (.paren (.int ['1'])), .expr (.ident HEIGHT)], ?_, (reads_iff _ _).2 (by decide +kernel),
      rfl⟩, hf, rfl⟩
    simp [Program, St.body, Ex.Ok, St.Minus, St.words, Ex.words]
  · refine (C86_compiles _ _).2 ⟨.ident HEIGHT, ⟨[.val HEIGHT (.int ['5']), .expr (.ident HEIGHT)], ?_, (reads_iff _ _).2 (by decide +kernel),
      rfl⟩, hf, rfl⟩
    simp [Program, St.body, Ex.Ok, St.Minus, St.words, Ex.words]

/-- C86, violated: `1 + 2L + 3` is accepted though its operands have different types and it is worth nothing at any height. -/
theorem C86_types_violate : (∃ e, compileExpr "1 + 2L + 3".toList (ScriptEnv.new : ScriptEnv G B) = .ok e) ∧
    ∃ x, Main "1 + 2L + 3".toList x ∧ ∀ h, x.worth h = none := by
  have hm : Main "1 + 2L + 3".toList (.bin .plus (.bin .plus (.int ['1']) (.long ['2', 'L'])) (.int ['3'])) := by
    refine main_of ?_ rfl (by decide +kernel)
    simp [Ex.Ok, Ex.level, prec]
  refine ⟨⟨_, (C86_compiles _ _).2 ⟨_, hm, ⟨?_, ?_, ?_, rfl⟩, rfl⟩⟩, _, hm, fun h => rfl⟩
  · simp only [Ex.Plain]; decide
  · simp [Ex.Sums]
  · exact ⟨.inr ⟨trivial, trivial⟩, .inr trivial⟩

/-- C86, violated: `HEIGHT + 1 + 2` is refused though it is worth a number, for the binder looks at the outermost operands only. -/
theorem C86_height_violates : (∃ s, compileExpr "HEIGHT + 1 + 2".toList (ScriptEnv.new : ScriptEnv G B) = .err (.mir s)) ∧
    ∃ x, Main "HEIGHT + 1 + 2".toList x ∧ x.worth 100 = some (.int, 103) := by
  have hm : Main "HEIGHT + 1 + 2".toList (.bin .plus (.bin .plus (.ident HEIGHT) (.int ['1'])) (.int ['2'])) := by
    refine main_of ?_ rfl (by decide +kernel)
    simp [Ex.Ok, Ex.level, prec]
  refine ⟨(C86_errors _).2.2.1.2 ⟨_, hm, ?_, ?_, ?_⟩, _, hm, by decide⟩
  · simp only [Ex.Plain]; decide
  · simp [Ex.Sums]
  · simp [Ex.Named, Ex.Near, Ex.Nameless]

/-- C86, violated: type inference takes a time exponential in the length of the text: `1+1+ … +1` with `k` additions, which has
`2k + 1` characters, takes at least `2 ^ (k/2)` calls of `assign_type`. -/
theorem C86_exponential_violates (k : Nat) : (ones k).length = 2 * k + 1 ∧
    ∃ h b t c, compileHir (ones k) = .ok h ∧ bindExpr (ScriptEnv.new : ScriptEnv G B) h = .ok b ∧
      assignType b.depth b 0 = .ok (t, c) ∧ 2 ^ (k / 2) ≤ c := by
  refine ⟨ones_length k, ?_⟩
  have hs := compileHir_spec (ones k) [.expr (oneSum k)] ⟨oneSum_ok k, by simp⟩ (ones_reads k)
  rw [List.filterMap_cons, oneSum_seen] at hs
  obtain ⟨h0, hh⟩ := (hirOf_plain _).2 (oneSum_plain k)
  simp only [List.filterMap_nil, hh] at hs
  obtain ⟨h, h1, h2, _⟩ := hs
  have hr := rep_bound (rep_of_bare (oneSum k) h (by rw [hh, h2]))
  have ha := (assignType_spec (bound h).depth (bound h) 0 (Nat.le_refl _)).1 ((repB_sums hr).2 (oneSum_sums k))
  refine ⟨h, bound h, _, _, h1, bindExpr_new h, ha, ?_⟩
  rw [Nat.zero_add]
  exact (oneSum_calls k _ hr).1

/-! ## C87 -/

/-- The positions that an error names. -/
def Positions : CompileErr → List Span
  | .parse l => l.map ParseErr.span
  | .hir s | .binder s | .typeInfer s | .mir s => [s]
  | .typeCheck | .tree => []

/-- C87: the positions named by an error are inside the text. -/
theorem C87_inside (src : List Char) (err : CompileErr) (h : compileExpr src (ScriptEnv.new : ScriptEnv G B) = .err err) :
    ∀ s ∈ Positions err, s.1 ≤ s.2 ∧ s.2 ≤ bytes src := by
  rcases compile_cases (G := G) (B := B) src with ⟨_, errs, _, h1, h2⟩ | ⟨_, _, h1⟩ | ⟨x, hm, h1 | h1 | h1 | h1 | h1⟩
  · rw [h] at h1; cases h1
    intro s hs
    obtain ⟨e, he, rfl⟩ := List.mem_map.1 hs
    have := h2 e he
    exact ⟨by omega, this.2⟩
  · rw [h] at h1; cases h1
    intro s hs
    simp only [Positions, List.mem_singleton] at hs
    subst hs
    exact ⟨Nat.zero_le _, Nat.le_refl _⟩
  · obtain ⟨_, s, h1, h2⟩ := h1
    rw [h] at h1; cases h1
    intro s' hs
    simp only [Positions, List.mem_singleton] at hs
    subst hs
    exact h2
  · rw [h] at h1; cases h1.2.2
  · obtain ⟨_, _, _, s, h1, h2⟩ := h1
    rw [h] at h1; cases h1
    intro s' hs
    simp only [Positions, List.mem_singleton] at hs
    subst hs
    exact h2
  · rw [h] at h1; cases h1.2.2.2.2
    simp [Positions]
  · obtain ⟨_, e', h1, _⟩ := h1
    rw [h] at h1; cases h1

theorem positions_eq (err : CompileErr) : spansOf err = Positions err := by cases err <;> rfl

/-- C87 (partial): an error of the compiler is described unless one of its positions is at the beginning of the text; then
`pretty_desc` panics, with and without overflow checks.  What is missing: those errors should be described as well. -/
theorem C87_described_partial (checked : Bool) (src : List Char) (hl : bytes src < 2 ^ 64 - 1) (err : CompileErr)
    (h : compileExpr src (ScriptEnv.new : ScriptEnv G B) = .err err) :
    ((∀ s ∈ Positions err, s.1 ≠ 0) → err.pretty checked src = .ok ()) ∧
    ((∃ s ∈ Positions err, s.1 = 0) → err.pretty checked src = .panic) := by
  have hi := C87_inside src err h
  have := pretty_spec checked src err (by rw [textLen_eq]; exact hl) (by rw [positions_eq, textLen_eq]; exact hi)
  rw [positions_eq] at this
  exact ⟨this.2, this.1⟩

/-- C87, violated: the error for a text without, or with several, statements that count cannot be
described. -/
theorem C87_whole_violates (checked : Bool) (src : List Char) (hl : bytes src < 2 ^ 64 - 1)
    (h : ∃ ss, Program ss ∧ Reads src (words ss)) (hm : ¬ ∃ x, Main src x) :
    ∃ err, compileExpr src (ScriptEnv.new : ScriptEnv G B) = .err err ∧ err.pretty checked src = .panic := by
  rcases compile_cases (G := G) (B := B) src with ⟨h0, _⟩ | ⟨_, _, h1⟩ | ⟨x, h1, _⟩
  · exact absurd h h0
  · refine ⟨_, h1, (C87_described_partial checked src hl _ h1).2 ⟨_, List.mem_singleton.2 rfl, rfl⟩⟩
  · exact absurd ⟨x, h1⟩ hm

/-- The empty text and two statements. -/
example (checked : Bool) : (∃ err, compileExpr [] (ScriptEnv.new : ScriptEnv G B) = .err err ∧ err.pretty checked [] = .panic) ∧
    ∃ err, compileExpr "1 2".toList (ScriptEnv.new : ScriptEnv G B) = .err err ∧ err.pretty checked "1 2".toList = .panic := by
  have nomain : ∀ (src : List Char) (ss : List St), Program ss → Reads src (words ss) → (∀ x, ss.filterMap St.seen ≠ [x]) → ¬ ∃ x, Main src x := by
    rintro src ss h1 h2 h3 ⟨x, ss', h1', h2', h3'⟩
    have := C85_unambiguous ss ss' h1 h1' (((reads_iff _ _).1 h2).symm.trans ((reads_iff _ _).1 h2'))
    subst this
    exact h3 x h3'
  have r1 : Reads [] (words []) := (reads_iff _ _).2 rfl
  have p2 : Program [.expr (.int ['1']), .expr (.int ['2'])] := by
    simp [Program, St.body, Ex.Ok, St.Minus, St.words, Ex.words]
  have r2 : Reads "1 2".toList (words [.expr (.int ['1']), .expr (.int ['2'])]) := (reads_iff _ _).2 (by decide +kernel)
  exact ⟨C87_whole_violates checked [] (by decide) ⟨[], trivial, r1⟩ (nomain _ [] trivial r1 (by simp)),
    C87_whole_violates checked _ (by decide) ⟨_, p2, r2⟩ (nomain _ _ p2 r2 (by simp [St.seen]))⟩

/-- C87 (partial): a description of `mid` in `pre ++ mid ++ post` shows the line on which `mid` begins, if the character before it is
no line feed and `mid` is on one line.  What is missing: `mid` at the beginning of a line, see the violation below. -/
theorem C87_line_partial (checked : Bool) (pre : List Char) (c : Char) (mid post : List Char) (hc : c ≠ '\n') (d : Char)
    (hm : '\n' ∉ mid) :
    prettyDesc checked (pre ++ [c] ++ (mid ++ [d]) ++ post) (bytes (pre ++ [c]), bytes (pre ++ [c]) + bytes (mid ++ [d]))
      = .ok (some ((pre ++ [c]).count '\n' + 1)) := by
  have hp : 0 < bytes (pre ++ [c]) := by
    have := Char.utf8Size_pos c
    simp only [bytes, List.map_append, List.sum_append, List.map_cons, List.map_nil, List.sum_cons, List.sum_nil]; omega
  rw [prettyDesc_pos checked _ _ hp (Nat.le_add_right _ _) (by
    rw [textLen_eq]; simp only [bytes, List.map_append, List.sum_append]; omega)]
  have e1 : lineOf.countBefore (pre ++ [c] ++ (mid ++ [d]) ++ post) (bytes (pre ++ [c]) - 1) = pre.count '\n' := by
    have := countBefore_last pre c (mid ++ [d] ++ post)
    rw [textLen_eq] at this
    simpa using this
  have e2 : lineOf.countBefore (pre ++ [c] ++ (mid ++ [d]) ++ post) (bytes (pre ++ [c]) + bytes (mid ++ [d]) - 1) = pre.count '\n' := by
    have := countBefore_last (pre ++ [c] ++ mid) d post
    rw [textLen_eq] at this
    have e3 : bytes (pre ++ [c] ++ mid ++ [d]) = bytes (pre ++ [c]) + bytes (mid ++ [d]) := by
      simp only [bytes, List.map_append, List.sum_append]; omega
    rw [e3] at this
    have e4 : (pre ++ [c] ++ mid).count '\n' = pre.count '\n' := by
      rw [List.count_append, List.count_append, List.count_eq_zero.2 hm, List.count_singleton]
      simp [hc]
    rw [e4] at this
    simpa using this
  rw [e1, e2, if_pos rfl]
  congr 2
  rw [List.count_append, List.count_singleton]
  simp [hc]

/-- C87, violated: an error at the beginning of a line other than the first is taken for one on several lines, and the line is
not shown. -/
theorem C87_line_violates (checked : Bool) (pre mid post : List Char) (hm : mid ≠ []) :
    prettyDesc checked (pre ++ ['\n'] ++ mid ++ post) (bytes (pre ++ ['\n']), bytes (pre ++ ['\n']) + bytes mid) = .ok none := by
  have hp : 0 < bytes (pre ++ ['\n']) := by
    have := Char.utf8Size_pos '\n'
    simp only [bytes, List.map_append, List.sum_append, List.map_cons, List.map_nil, List.sum_cons, List.sum_nil]; omega
  rw [prettyDesc_pos checked _ _ hp (Nat.le_add_right _ _) (by
    rw [textLen_eq]; simp only [bytes, List.map_append, List.sum_append]; omega)]
  have e1 : lineOf.countBefore (pre ++ ['\n'] ++ mid ++ post) (bytes (pre ++ ['\n']) - 1) = pre.count '\n' := by
    have := countBefore_last pre '\n' (mid ++ post)
    rw [textLen_eq] at this
    simpa using this
  have hb : 0 < bytes mid := by
    cases mid with
    | nil => exact absurd rfl hm
    | cons c mid => have := Char.utf8Size_pos c; simp only [bytes, List.map_cons, List.sum_cons]; omega
  have e2 : pre.count '\n' + 1 ≤ lineOf.countBefore (pre ++ ['\n'] ++ mid ++ post) (bytes (pre ++ ['\n']) + bytes mid - 1) := by
    have h1 := countBefore_append (pre ++ ['\n']) (mid ++ post) 0
    have h2 := countBefore_mono (pre ++ ['\n'] ++ mid ++ post) (bytes (pre ++ ['\n']) + 0) (bytes (pre ++ ['\n']) + bytes mid - 1) (by omega)
    rw [textLen_eq, List.count_append, ← List.append_assoc] at h1
    rw [h1] at h2
    have h3 : List.count '\n' ['\n'] = 1 := by decide
    omega
  rw [e1, if_neg (by simp only; omega)]

/-- The unknown name is shown when it stands behind a blank, and not when it stands on a line of its own. -/
example : prettyDesc true "1 + x".toList (4, 5) = .ok (some 1) ∧ prettyDesc true "1 +\nx".toList (4, 5) = .ok none := by
  constructor
  · exact C87_line_partial true "1 +".toList ' ' [] [] (by decide) 'x' (by simp)
  · exact C87_line_violates true "1 +".toList ['x'] [] (by simp)

end Verif
