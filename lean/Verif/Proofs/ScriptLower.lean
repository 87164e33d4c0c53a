import Verif.Spec.ScriptMeaning
import Verif.Model.ScriptCompiler
import Verif.Proofs.ScriptGrammar

/-!
# From the syntax tree of a program to the high-level representation
-/

set_option linter.unusedSimpArgs false
set_option linter.unusedVariables false

namespace Verif
namespace Script
open ScriptSpec

/-! ## Trees with trivia -/

theorem decor_nil {F : List Green} (h : Decor [] F) : F = [] := by
  cases h; rfl

theorem decor_node {k : SynKind} {c f F : List Green} (h : Decor (.node k c :: f) F) :
    ∃ c' f', F = .node k c' :: f' ∧ Decor c c' ∧ Decor f f' := by
  generalize hF : Green.node k c :: f = F0 at h
  cases h with
  | nil => cases hF
  | leaf t ht w hw f0 f' hf => simp [leaf] at hF
  | node k' c0 c' hc f0 f' hf =>
    cases hF
    exact ⟨c', f', rfl, hc, hf⟩

theorem decor_leaf {k : TokKind} {t : List Char} {f F : List Green} (h : Decor (.token k t :: f) F) :
    ∃ w f', F = .token k t :: (w ++ f') ∧ TriviaRow w ∧ Decor f f' := by
  generalize hF : Green.token k t :: f = F0 at h
  cases h with
  | nil => cases hF
  | leaf t' ht w hw f0 f' hf =>
    simp only [leaf, List.cons.injEq, Green.token.injEq] at hF
    obtain ⟨⟨rfl, rfl⟩, rfl⟩ := hF
    exact ⟨w, f', rfl, hw, hf⟩
  | node k' c0 c' hc f0 f' hf => simp at hF

theorem lens_append (a b : List Green) : Green.lens (a ++ b) = Green.lens a + Green.lens b := by
  induction a with
  | nil => simp [Green.lens]
  | cons g a ih => simp [Green.lens, ih]; omega

theorem sizes_append (a b : List Green) : Green.sizes (a ++ b) = Green.sizes a + Green.sizes b := by
  induction a with
  | nil => simp [Green.sizes]
  | cons g a ih => simp [Green.sizes, ih]; omega

theorem castables_trivia (w : List Green) (h : TriviaRow w) (off : Nat) (f : List Green) :
    castables off (w ++ f) = castables (off + Green.lens w) f := by
  obtain ⟨ts, hts, rfl⟩ := h
  clear hts
  induction ts generalizing off with
  | nil => rfl
  | cons t ts ih =>
    simp only [List.map_cons, List.cons_append, castables, leaf, castable, Bool.false_eq_true, if_false, Green.lens]
    have := ih (off + Green.len (.token t.1 t.2))
    rw [this, Nat.add_assoc]

/-- The tree of an expression is a node. -/
theorem tree_node (x : Ex) : ∃ k c, x.tree = .node k c := by
  cases x <;> exact ⟨_, _, rfl⟩

theorem stTree_node (s : St) : ∃ k c, s.tree = .node k c := by
  cases s with
  | expr x => exact tree_node x
  | val n x => exact ⟨_, _, rfl⟩

theorem decor_castable {g g' : Green} {f f' : List Green} (h : Decor (g :: f) (g' :: f')) : castable g' = castable g := by
  cases g with
  | node k c =>
    obtain ⟨c', f'', h1, _⟩ := decor_node h
    cases h1
    cases k with
    | tok k => cases k <;> rfl
    | _ => rfl
  | token k t =>
    obtain ⟨w, f'', h1, _⟩ := decor_leaf h
    cases h1
    rfl

/-! ## Numbers -/

theorem digits_acc (s : List Char) (acc : Nat) : digits s acc = acc * 10 ^ s.length + decimal s := by
  induction s generalizing acc with
  | nil => simp [digits, decimal]
  | cons c s ih =>
    rw [digits, ih, decimal, digitVal, List.length_cons, Nat.pow_succ, Nat.add_mul]
    have : 10 * acc * 10 ^ s.length = acc * (10 ^ s.length * 10) := by
      rw [Nat.mul_comm 10 acc, Nat.mul_assoc, Nat.mul_comm 10]
    omega

theorem digits_decimal (s : List Char) : digits s 0 = decimal s := by
  rw [digits_acc]; simp

theorem parseLit_int {s : List Char} (h : Lexeme .intNumber s) :
    parseLit s = if decimal s < 2 ^ 31 then some (.int (BitVec.ofNat 32 (decimal s))) else none := by
  unfold parseLit
  have : s.getLast? ≠ some 'L' := by
    intro hl
    have hm := List.mem_of_getLast? hl
    have := h.2 'L' hm
    revert this; decide
  split
  · rename_i h'; exact absurd h' this
  · rw [digits_decimal]

theorem parseLit_long {s : List Char} (h : Lexeme .longNumber s) :
    parseLit s = if decimal (beforeL s) < 2 ^ 63 then some (.long (BitVec.ofNat 64 (decimal (beforeL s)))) else none := by
  obtain ⟨t, rfl, _⟩ := h
  unfold parseLit
  rw [List.getLast?_concat]
  simp only [beforeL, digits_decimal]
  rfl

/-! ## Lowering -/

/-- The expression without its spans. -/
def HExpr.bare : HExpr → HExpr
  | ident s _ t => ident s (0, 0) t
  | bin op l r _ t => bin op l.bare r.bare (0, 0) t
  | height _ t => height (0, 0) t
  | lit v _ t => lit v (0, 0) t

/-- A span inside a range. -/
def SpanIn (lo hi : Nat) (s : Span) : Prop := lo ≤ s.1 ∧ s.1 ≤ s.2 ∧ s.2 ≤ hi

theorem SpanIn.mono {lo hi lo' hi' : Nat} {s : Span} (h : SpanIn lo hi s) (h1 : lo' ≤ lo) (h2 : hi ≤ hi') : SpanIn lo' hi' s := by
  obtain ⟨a, b, c⟩ := h
  exact ⟨by omega, b, by omega⟩

/-- All spans are inside a range. -/
def HExpr.Within (lo hi : Nat) : HExpr → Prop
  | ident _ s _ | height s _ | lit _ s _ => SpanIn lo hi s
  | bin _ l r s _ => SpanIn lo hi s ∧ l.Within lo hi ∧ r.Within lo hi

theorem HExpr.Within.mono {lo hi lo' hi' : Nat} {h : HExpr} (hw : h.Within lo hi) (h1 : lo' ≤ lo) (h2 : hi ≤ hi') :
    h.Within lo' hi' := by
  induction h with
  | ident _ s _ => exact SpanIn.mono hw h1 h2
  | height s _ => exact SpanIn.mono hw h1 h2
  | lit _ s _ => exact SpanIn.mono hw h1 h2
  | bin _ l r s _ ihl ihr => exact ⟨SpanIn.mono hw.1 h1 h2, ihl hw.2.1, ihr hw.2.2⟩

/-- What lowering gives, without spans. -/
def hirOf : Ex → Option HExpr
  | .int s => if decimal s < 2 ^ 31 then some (.lit (.int (BitVec.ofNat 32 (decimal s))) (0, 0) (some .int)) else none
  | .long s =>
    if decimal (beforeL s) < 2 ^ 63 then some (.lit (.long (BitVec.ofNat 64 (decimal (beforeL s)))) (0, 0) (some .long)) else none
  | .ident s => some (.ident s (0, 0) none)
  | .neg _ | .paren _ => none
  | .bin op l r =>
    match hirOf l, hirOf r with
    | some a, some b => some (.bin op a b (0, 0) none)
    | _, _ => none

/-- The words have the texts of their kinds. -/
def Real (ws : List (TokKind × List Char)) : Prop := ∀ w ∈ ws, w.1 ≠ .error → Lexeme w.1 w.2

/-- The result of lowering at a range. -/
def LowerTo (lo hi : Nat) (r : Comp HExpr) (o : Option HExpr) : Prop :=
  match o with
  | some h0 => ∃ h, r = .ok h ∧ h.bare = h0 ∧ h.Within lo hi
  | none => ∃ s, r = .err (.hir s) ∧ SpanIn lo hi s

theorem castable_tree (x : Ex) : castable x.tree = true ↔ ∀ y, x ≠ .neg y ∧ x ≠ .paren y := by
  cases x <;> simp [Ex.tree, castable]

theorem hirOf_castable {x : Ex} {h : HExpr} (hx : hirOf x = some h) : castable x.tree = true := by
  cases x <;> simp [hirOf] at hx <;> rfl

theorem Comp.ok_bind {α β : Type} (a : α) (f : α → Comp β) : (Comp.ok a >>= f) = f a := rfl
theorem Comp.err_bind {α β : Type} (e : CompileErr) (f : α → Comp β) : ((Comp.err e : Comp α) >>= f) = .err e := rfl
theorem Comp.panic_bind {α β : Type} (f : α → Comp β) : ((Comp.panic : Comp α) >>= f) = .panic := rfl
theorem Comp.pure_def {α : Type} (a : α) : (pure a : Comp α) = .ok a := rfl

theorem lowerExpr_spec (x : Ex) (hr : Real x.words) (hc : castable x.tree = true) (n off : Nat) (g : Green)
    (h : Decor [x.tree] [g]) (hn : g.size ≤ n) : LowerTo off (off + g.len) (lowerExpr n off g) (hirOf x) := by
  induction x generalizing n off g with
  | int s =>
    obtain ⟨c, f, h1, h2, _⟩ := decor_node h
    cases h1
    obtain ⟨w, f', rfl, hw, hf'⟩ := decor_leaf h2
    cases decor_nil hf'
    cases n with
    | zero => simp [Green.size] at hn
    | succ n =>
      have hl : Lexeme .intNumber s := hr (.intNumber, s) (by simp [Ex.words]) (by simp)
      have hs : SpanIn off (off + Green.lens (.token .intNumber s :: (w ++ [])))
          (off, off + Green.lens (.token .intNumber s :: (w ++ []))) :=
        ⟨Nat.le_refl _, Nat.le_add_right _ _, Nat.le_refl _⟩
      simp only [lowerExpr, firstToken, parseLit_int hl, hirOf]
      by_cases hd : decimal s < 2 ^ 31
      · rw [if_pos hd, if_pos hd]
        exact ⟨_, rfl, rfl, hs⟩
      · rw [if_neg hd, if_neg hd]
        exact ⟨_, rfl, hs⟩
  | long s =>
    obtain ⟨c, f, h1, h2, _⟩ := decor_node h
    cases h1
    obtain ⟨w, f', rfl, hw, hf'⟩ := decor_leaf h2
    cases decor_nil hf'
    cases n with
    | zero => simp [Green.size] at hn
    | succ n =>
      have hl : Lexeme .longNumber s := hr (.longNumber, s) (by simp [Ex.words]) (by simp)
      have hs : SpanIn off (off + Green.lens (.token .longNumber s :: (w ++ [])))
          (off, off + Green.lens (.token .longNumber s :: (w ++ []))) :=
        ⟨Nat.le_refl _, Nat.le_add_right _ _, Nat.le_refl _⟩
      simp only [lowerExpr, firstToken, parseLit_long hl, hirOf]
      by_cases hd : decimal (beforeL s) < 2 ^ 63
      · rw [if_pos hd, if_pos hd]
        exact ⟨_, rfl, rfl, hs⟩
      · rw [if_neg hd, if_neg hd]
        exact ⟨_, rfl, hs⟩
  | ident s =>
    obtain ⟨c, f, h1, h2, _⟩ := decor_node h
    cases h1
    obtain ⟨w, f', rfl, hw, hf'⟩ := decor_leaf h2
    cases decor_nil hf'
    cases n with
    | zero => simp [Green.size] at hn
    | succ n =>
      refine ⟨.ident s (off, off + Green.lens (.token .ident s :: (w ++ []))) none, ?_, rfl,
        ⟨Nat.le_refl _, Nat.le_add_right _ _, Nat.le_refl _⟩⟩
      simp [lowerExpr, identName, tokensOf]
  | neg x ih => simp [Ex.tree, castable] at hc
  | paren x ih => simp [Ex.tree, castable] at hc
  | bin op l r ihl ihr =>
    obtain ⟨c, f, h1, h2, _⟩ := decor_node h
    cases h1
    obtain ⟨kl, cl, el⟩ := tree_node l
    have h2' := h2
    rw [el] at h2'
    obtain ⟨cl', f1, rfl, h3, h4⟩ := decor_node h2'
    obtain ⟨w, f2, rfl, hw, h5⟩ := decor_leaf h4
    obtain ⟨kr, cr, er⟩ := tree_node r
    have h5' := h5
    rw [er] at h5'
    obtain ⟨cr', f3, rfl, h6, h7⟩ := decor_node h5'
    cases decor_nil h7
    have hdl : Decor [l.tree] [.node kl cl'] := by rw [el]; exact .node _ _ _ h3 _ _ .nil
    have hcl : castable (.node kl cl') = castable l.tree := decor_castable hdl
    have hcr : castable (.node kr cr') = castable r.tree := decor_castable h5
    cases n with
    | zero => simp [Green.size] at hn
    | succ n =>
      let tk : Green := .token (opWord op).1 (opWord op).2
      have htk : castable tk = false := rfl
      have hbo : (binaryOp (.node kl cl' :: tk :: (w ++ [.node kr cr']))).bind bopOf = some op := by
        cases op <;> rfl
      have hcast : castables off (.node kl cl' :: tk :: (w ++ [.node kr cr']))
          = (if castable l.tree then [(off, Green.node kl cl')] else []) ++
            (if castable r.tree then
              [(off + Green.len (.node kl cl') + tk.len + Green.lens w, Green.node kr cr')] else []) := by
        simp only [castables, htk, Bool.false_eq_true, if_false, castables_trivia w hw, hcl, hcr]
        cases castable l.tree <;> cases castable r.tree <;> simp
      have hlen : Green.len (.node .infixExpr (.node kl cl' :: tk :: (w ++ [.node kr cr'])))
          = Green.len (.node kl cl') + tk.len + Green.lens w + Green.len (.node kr cr') := by
        rw [Green.len, Green.lens, Green.lens, lens_append]
        simp [Green.lens]
        omega
      have hsz : Green.size (.node kl cl') ≤ n ∧ Green.size (.node kr cr') ≤ n := by
        have e : Green.size (.node .infixExpr (.node kl cl' :: tk :: (w ++ [.node kr cr'])))
            = Green.size (.node kl cl') + (tk.size + (Green.sizes w + Green.size (.node kr cr'))) + 1 := by
          rw [Green.size, Green.sizes, Green.sizes, sizes_append]
          simp [Green.sizes]
        rw [show Green.token (opWord op).1 (opWord op).2 = tk from rfl, e] at hn
        omega
      have hspan : SpanIn off (off + Green.len (.node .infixExpr (.node kl cl' :: tk :: (w ++ [.node kr cr']))))
          (off, off + Green.lens (.node kl cl' :: tk :: (w ++ [.node kr cr']))) :=
        ⟨Nat.le_refl _, Nat.le_add_right _ _, Nat.le_refl _⟩
      show LowerTo off _ (lowerExpr (n + 1) off (.node .infixExpr (.node kl cl' :: tk :: (w ++ [.node kr cr'])))) _
      simp only [lowerExpr, hbo, hcast]
      by_cases hl : castable l.tree = true
      · by_cases hrr : castable r.tree = true
        · rw [if_pos hl, if_pos hrr]
          simp only [List.cons_append, List.nil_append]
          have il := ihl (fun w hw => hr w (by simp [Ex.words, hw])) hl n off _ hdl hsz.1
          have ir := ihr (fun w hw => hr w (by simp [Ex.words, hw])) hrr n
            (off + Green.len (.node kl cl') + tk.len + Green.lens w) _ h5 hsz.2
          rw [hirOf]
          cases hl0 : hirOf l with
          | none =>
            rw [hl0] at il
            obtain ⟨s, e1, e2⟩ := il
            rw [e1]
            exact ⟨s, rfl, e2.mono (Nat.le_refl _) (by rw [hlen]; omega)⟩
          | some a0 =>
            rw [hl0] at il
            obtain ⟨a, e1, e2, e3⟩ := il
            rw [e1]
            cases hr0 : hirOf r with
            | none =>
              rw [hr0] at ir
              obtain ⟨s, e4, e5⟩ := ir
              rw [Comp.ok_bind, e4]
              exact ⟨s, rfl, e5.mono (by omega) (by rw [hlen]; omega)⟩
            | some b0 =>
              rw [hr0] at ir
              obtain ⟨b, e4, e5, e6⟩ := ir
              rw [Comp.ok_bind, e4, Comp.ok_bind]
              refine ⟨_, rfl, ?_, hspan, e3.mono (Nat.le_refl _) (by rw [hlen]; omega), e6.mono (by omega) (by rw [hlen]; omega)⟩
              simp only [HExpr.bare, e2, e5]
        · rw [if_pos hl, if_neg hrr]
          have : hirOf r = none := by
            cases hr0 : hirOf r with
            | none => rfl
            | some b => exact absurd (hirOf_castable hr0) hrr
          have e : hirOf (.bin op l r) = none := by
            rw [hirOf, this]; cases hirOf l <;> rfl
          rw [e]
          exact ⟨_, rfl, hspan⟩
      · rw [if_neg hl]
        have : hirOf l = none := by
          cases hr0 : hirOf l with
          | none => rfl
          | some b => exact absurd (hirOf_castable hr0) hl
        have e : hirOf (.bin op l r) = none := by
          rw [hirOf, this]
        rw [e]
        by_cases hrr : castable r.tree = true
        · rw [if_pos hrr]
          exact ⟨_, rfl, hspan⟩
        · rw [if_neg hrr]
          exact ⟨_, rfl, hspan⟩

theorem seen_castable (s : St) : s.seen = if castable s.tree then some s.body else none := by
  cases s with
  | expr x => cases x <;> simp [St.seen, St.tree, Ex.tree, castable, St.body]
  | val n x => simp [St.seen, St.tree, castable]

theorem seen_expr {s : St} {x : Ex} (h : s.seen = some x) : s = .expr x ∧ castable x.tree = true := by
  cases s with
  | expr y => cases y <;> simp [St.seen] at h <;> subst h <;> exact ⟨rfl, rfl⟩
  | val n y => simp [St.seen] at h

/-- The statements which the compiler sees, with their nodes and positions. -/
inductive SeenRow (lo hi : Nat) : List Ex → List (Nat × Green) → Prop where
  | nil : SeenRow lo hi [] []
  | cons (x : Ex) (xs : List Ex) (off : Nat) (g : Green) (ps : List (Nat × Green)) (hd : Decor [x.tree] [g])
      (hc : castable x.tree = true) (h1 : lo ≤ off) (h2 : off + g.len ≤ hi) (hr : SeenRow lo hi xs ps) :
      SeenRow lo hi (x :: xs) ((off, g) :: ps)

theorem SeenRow.mono {lo hi lo' hi' : Nat} {xs : List Ex} {ps : List (Nat × Green)} (h : SeenRow lo hi xs ps) (h1 : lo' ≤ lo)
    (h2 : hi ≤ hi') : SeenRow lo' hi' xs ps := by
  induction h with
  | nil => exact .nil
  | cons x xs off g ps hd hc h3 h4 hr ih => exact .cons x xs off g ps hd hc (by omega) (by omega) ih

theorem seenRow (ss : List St) (f : List Green) (h : Decor (ss.map St.tree) f) (off : Nat) :
    SeenRow off (off + Green.lens f) (ss.filterMap St.seen) (castables off f) := by
  induction ss generalizing f off with
  | nil =>
    cases decor_nil h
    exact .nil
  | cons s ss ih =>
    obtain ⟨k, c, e⟩ := stTree_node s
    have h' := h
    rw [List.map_cons, e] at h'
    obtain ⟨c', f', rfl, h1, h2⟩ := decor_node h'
    have hd : Decor [s.tree] [.node k c'] := by rw [e]; exact .node _ _ _ h1 _ _ .nil
    have hcs : castable (.node k c') = castable s.tree := decor_castable hd
    have := ih f' h2 (off + Green.len (.node k c'))
    have hlen : Green.lens (.node k c' :: f') = Green.len (.node k c') + Green.lens f' := rfl
    have this' := this.mono (lo' := off) (hi' := off + Green.lens (.node k c' :: f')) (by omega) (by rw [hlen]; omega)
    rw [castables, hcs]
    by_cases hc : castable s.tree = true
    · have hs : s.seen = some s.body := by rw [seen_castable, if_pos hc]
      obtain ⟨e1, e2⟩ := seen_expr hs
      rw [if_pos hc, List.filterMap_cons_some hs]
      refine .cons _ _ _ _ _ ?_ e2 (Nat.le_refl _) (by rw [hlen]; omega) this'
      have : s.tree = s.body.tree := by
        conv => lhs; rw [e1]
        rfl
      rw [← this]; exact hd
    · have hs : s.seen = none := by rw [seen_castable, if_neg hc]
      rw [if_neg hc, List.filterMap_cons_none hs]
      exact this'

theorem real_of_reads {src : List Char} {ws : List (TokKind × List Char)} (h : Reads src ws) : Real ws := by
  rw [reads_iff] at h
  subst h
  intro w hw
  obtain ⟨t, ht, rfl⟩ := List.mem_map.1 hw
  exact genuine_sig src t ht

theorem textLen_append (a b : List Char) : textLen (a ++ b) = textLen a + textLen b := by
  induction a with
  | nil => simp [textLen]
  | cons c a ih => simp [textLen, ih]; omega

mutual
theorem len_text : (g : Green) → g.len = textLen (text g)
  | .node k cs => by
    rw [Green.len, text]
    exact lens_text cs
  | .token k t => rfl
theorem lens_text : (f : List Green) → Green.lens f = textLen (texts f)
  | [] => rfl
  | g :: gs => by rw [Green.lens, texts, textLen_append, len_text g, lens_text gs]
end

/-- What `compile_hir` makes of a text without syntax errors. -/
theorem compileHir_spec (src : List Char) (ss : List St) (hp : Program ss) (hr : Reads src (words ss)) :
    match ss.filterMap St.seen with
    | [x] => LowerTo 0 (textLen src) (compileHir src) (hirOf x)
    | _ => compileHir src = .err (.hir (0, textLen src)) := by
  have hk := (reads_iff _ _).1 hr
  have hd : direct (lex src) = some (ss.map St.tree, 0) := by
    have := sig_length (lex src)
    exact dStmts_full ss hp _ hk _ _ (by omega) (by omega)
  obtain ⟨w, f', errs, h1, h2, h3, h4, h5⟩ := parse_direct src _ _ hd
  have : errs = [] := List.length_eq_zero_iff.1 h3
  subst this
  have hlen : Green.lens (w ++ f') = textLen src := by
    rw [lens_text, texts_leaves, ← h5]
    have := keys_text (lex src)
    rw [keys] at this
    rw [this, tokens_text (lex_tokens src)]
  have hrow := seenRow ss f' h2 (Green.lens w)
  have hcast : castables 0 (w ++ f') = castables (Green.lens w) f' := by
    rw [castables_trivia w h1, Nat.zero_add]
  have hl2 : Green.lens w + Green.lens f' = textLen src := by rw [← lens_append, hlen]
  rw [hl2] at hrow
  have hcomp : compileHir src = hirLower (.node .root (w ++ f')) := by
    rw [compileHir, h4]
  rw [hcomp, hirLower, hcast, hlen]
  have hreal : ∀ x ∈ ss.filterMap St.seen, Real x.words := by
    intro x hx w hw
    obtain ⟨s, hs, he⟩ := List.mem_filterMap.1 hx
    obtain ⟨rfl, _⟩ := seen_expr he
    exact real_of_reads hr w (List.mem_flatMap.2 ⟨_, hs, hw⟩)
  generalize ss.filterMap St.seen = xs at hrow hreal
  generalize castables (Green.lens w) f' = ps at hrow
  cases hrow with
  | nil => rfl
  | cons x xs off g ps hd hc h6 h7 hrest =>
    cases hrest with
    | nil =>
      have := lowerExpr_spec x (hreal x (by simp)) hc g.size off g hd (Nat.le_refl _)
      simp only
      unfold LowerTo at this ⊢
      cases hx : hirOf x with
      | some h0 =>
        rw [hx] at this
        obtain ⟨h, e1, e2, e3⟩ := this
        exact ⟨h, e1, e2, e3.mono (by omega) h7⟩
      | none =>
        rw [hx] at this
        obtain ⟨s, e1, e2⟩ := this
        exact ⟨s, e1, e2.mono (by omega) h7⟩
    | cons y ys off' g' ps' hd' hc' h6' h7' hrest' => rfl

end Script
end Verif
