import Verif.Proofs.ScriptEvents

/-!
# The ErgoScript parser as a function from tokens to trees
-/

set_option linter.unusedSimpArgs false
set_option linter.unusedVariables false

namespace Verif
namespace Script

/-- The operator of a token. -/
def opOfKind : TokKind → Option BOp
  | .plus => some .plus
  | .minus => some .minus
  | .star => some .multiply
  | .slash => some .divide
  | _ => none

/-- What is left after a failed expectation. -/
def dError : List Tok → List Green × List Tok
  | [] => ([], [])
  | t :: r => ([.node (.tok .error) [leaf t.key]], r)

/-- `expect`: the leaf, or the error node; the number of errors. -/
def dExpect (k : TokKind) (ts : List Tok) : List Green × Nat × List Tok :=
  match ts with
  | t :: r => if t.kind = k then ([leaf t.key], 0, r) else ((dError ts).1, 1, (dError ts).2)
  | [] => ([], 1, [])

/-- Result: the tree, if there is one, else the error nodes; the number of errors; the tokens left. -/
abbrev DRes := Option Green × List Green × Nat × List Tok

/-- The trees of a result. -/
def DRes.forest (r : DRes) : List Green := r.1.toList ++ r.2.1

mutual
def dExpr : Nat → Nat → List Tok → Option DRes
  | 0, _, _ => none
  | n + 1, min, ts =>
    match dLhs n ts with
    | none => none
    | some (none, f, e, r) => some (none, f, e, r)
    | some (some g, _, e, r) => dLoop n min g e r

def dLoop : Nat → Nat → Green → Nat → List Tok → Option DRes
  | 0, _, _, _, _ => none
  | n + 1, min, g, e, ts =>
    match ts with
    | [] => some (some g, [], e, [])
    | t :: r =>
      match opOfKind t.kind with
      | none => some (some g, [], e, t :: r)
      | some op =>
        if op.power.1 < min then some (some g, [], e, t :: r)
        else
          match dExpr n op.power.2 r with
          | none => none
          | some (g', f, e', r') =>
            if g'.isSome then dLoop n min (.node .infixExpr (g :: leaf t.key :: (g'.toList ++ f))) (e + e') r'
            else some (some (.node .infixExpr (g :: leaf t.key :: (g'.toList ++ f))), [], e + e', r')

def dLhs : Nat → List Tok → Option DRes
  | 0, _ => none
  | n + 1, ts =>
    match ts with
    | [] => some (none, [], 1, [])
    | t :: r =>
      if t.kind = .intNumber ∨ t.kind = .longNumber ∨ t.kind = .ident then
        some (some (.node (.tok t.kind) [leaf t.key]), [], 0, r)
      else if t.kind = .minus then dPrefix n t r
      else if t.kind = .lParen then dParen n t r
      else some (none, (dError (t :: r)).1, 1, (dError (t :: r)).2)

def dPrefix : Nat → Tok → List Tok → Option DRes
  | 0, _, _ => none
  | n + 1, t, r =>
    match dExpr n negPower r with
    | none => none
    | some (g, f, e, r') => some (some (.node .prefixExpr (leaf t.key :: (g.toList ++ f))), [], e, r')

def dParen : Nat → Tok → List Tok → Option DRes
  | 0, _, _ => none
  | n + 1, t, r =>
    match dExpr n 0 r with
    | none => none
    | some (g, f, e, r') =>
      some (some (.node .parenExpr (leaf t.key :: ((g.toList ++ f) ++ (dExpect .rParen r').1))), [],
        e + (dExpect .rParen r').2.1, (dExpect .rParen r').2.2)
end

/-- A statement: its trees, the number of errors, the tokens left. -/
def dStmt (n : Nat) (ts : List Tok) : Option (List Green × Nat × List Tok) :=
  match ts with
  | [] => none
  | t :: r =>
    if t.kind = .valKw then
      let x := dExpect .ident r
      let y := dExpect .equals x.2.2
      match dExpr n 0 y.2.2 with
      | none => none
      | some (g, f, e, r') =>
        some ([.node .variableDef (leaf t.key :: (x.1 ++ (y.1 ++ (g.toList ++ f))))], x.2.1 + (y.2.1 + e), r')
    else
      match dExpr n 0 (t :: r) with
      | none => none
      | some (g, f, e, r') => some (g.toList ++ f, e, r')

/-- All statements. -/
def dStmts : Nat → Nat → List Tok → Option (List Green × Nat)
  | 0, _, _ => none
  | k + 1, n, ts =>
    match ts with
    | [] => some ([], 0)
    | t :: r =>
      match dStmt n (t :: r) with
      | none => none
      | some (f, e, r') =>
        match dStmts k n r' with
        | none => none
        | some (f', e') => some (f ++ f', e + e')

/-! ## The budget -/

theorem dError_le (ts : List Tok) : (dError ts).2.length ≤ ts.length := by
  cases ts <;> simp [dError]

theorem dExpect_le (k : TokKind) (ts : List Tok) : (dExpect k ts).2.2.length ≤ ts.length := by
  cases ts with
  | nil => simp [dExpect]
  | cons t r =>
    simp only [dExpect]
    split <;> simp [dError]

theorem d_enough (n : Nat) :
    (∀ min ts, 3 * ts.length + 3 ≤ n → ∃ g f e r, dExpr n min ts = some (g, f, e, r) ∧ r.length ≤ ts.length ∧
      (ts ≠ [] → r.length < ts.length)) ∧
    (∀ min g e ts, 3 * ts.length + 1 ≤ n → ∃ g' e' r, dLoop n min g e ts = some (some g', [], e', r) ∧ r.length ≤ ts.length) ∧
    (∀ ts, 3 * ts.length + 2 ≤ n → ∃ g f e r, dLhs n ts = some (g, f, e, r) ∧ r.length ≤ ts.length ∧
      (ts ≠ [] → r.length < ts.length)) := by
  induction n using Nat.strongRecOn with
  | ind n ih =>
    refine ⟨?_, ?_, ?_⟩
    · intro min ts hn
      cases n with
      | zero => omega
      | succ n =>
        obtain ⟨g, f, e, r, h1, h2, h3⟩ := (ih n (Nat.lt_succ_self n)).2.2 ts (by omega)
        rw [dExpr, h1]
        cases g with
        | none => exact ⟨_, _, _, _, rfl, h2, h3⟩
        | some g =>
          simp only
          obtain ⟨g', e', r', k1, k2⟩ := (ih n (Nat.lt_succ_self n)).2.1 min g e r (by omega)
          refine ⟨_, _, _, _, k1, by omega, ?_⟩
          intro ht
          have := h3 ht
          omega
    · intro min g e ts hn
      cases n with
      | zero => omega
      | succ n =>
        cases ts with
        | nil => exact ⟨_, _, _, rfl, Nat.le_refl _⟩
        | cons t r =>
          rw [dLoop]
          simp only [List.length_cons] at hn
          cases ho : opOfKind t.kind with
          | none => exact ⟨_, _, _, rfl, Nat.le_refl _⟩
          | some op =>
            simp only
            split
            · exact ⟨_, _, _, rfl, Nat.le_refl _⟩
            · obtain ⟨g1, f1, e1, r1, h1, h2, _⟩ := (ih n (Nat.lt_succ_self n)).1 op.power.2 r (by omega)
              rw [h1]
              simp only
              split
              · obtain ⟨g', e', r', k1, k2⟩ := (ih n (Nat.lt_succ_self n)).2.1 min
                  (.node .infixExpr (g :: leaf t.key :: (g1.toList ++ f1))) (e + e1) r1 (by omega)
                refine ⟨_, _, _, k1, ?_⟩
                simp only [List.length_cons]; omega
              · refine ⟨_, _, _, rfl, ?_⟩
                simp only [List.length_cons]; omega
    · intro ts hn
      cases n with
      | zero => omega
      | succ n =>
        cases ts with
        | nil => exact ⟨_, _, _, _, rfl, Nat.le_refl _, fun h => absurd rfl h⟩
        | cons t r =>
          simp only [List.length_cons] at hn
          rw [dLhs]
          by_cases h1 : t.kind = .intNumber ∨ t.kind = .longNumber ∨ t.kind = .ident
          · rw [if_pos h1]
            exact ⟨_, _, _, _, rfl, by simp, by simp⟩
          rw [if_neg h1]
          by_cases h2 : t.kind = .minus
          · rw [if_pos h2]
            cases n with
            | zero => omega
            | succ n =>
              obtain ⟨g1, f1, e1, r1, k1, k2, _⟩ := (ih n (by omega)).1 negPower r (by omega)
              rw [dPrefix, k1]
              exact ⟨_, _, _, _, rfl, by simp only [List.length_cons]; omega, fun _ => by simp only [List.length_cons]; omega⟩
          rw [if_neg h2]
          by_cases h3 : t.kind = .lParen
          · rw [if_pos h3]
            cases n with
            | zero => omega
            | succ n =>
              obtain ⟨g1, f1, e1, r1, k1, k2, _⟩ := (ih n (by omega)).1 0 r (by omega)
              rw [dParen, k1]
              have := dExpect_le .rParen r1
              exact ⟨_, _, _, _, rfl, by simp only [List.length_cons]; omega, fun _ => by simp only [List.length_cons]; omega⟩
          rw [if_neg h3]
          exact ⟨_, _, _, _, rfl, by simp [dError], fun _ => by simp [dError]⟩

theorem dStmt_enough (n : Nat) (ts : List Tok) (h : ts ≠ []) (hn : 3 * ts.length + 3 ≤ n) :
    ∃ f e r, dStmt n ts = some (f, e, r) ∧ r.length < ts.length := by
  cases ts with
  | nil => exact absurd rfl h
  | cons t r =>
    simp only [List.length_cons] at hn
    simp only [dStmt]
    by_cases hv : t.kind = .valKw
    · rw [if_pos hv]
      have h1 := dExpect_le .ident r
      have h2 := dExpect_le .equals (dExpect .ident r).2.2
      obtain ⟨g, f, e, r', k1, k2, _⟩ := (d_enough n).1 0 (dExpect .equals (dExpect .ident r).2.2).2.2 (by omega)
      rw [k1]
      exact ⟨_, _, _, rfl, by simp only [List.length_cons]; omega⟩
    · rw [if_neg hv]
      obtain ⟨g, f, e, r', k1, k2, k3⟩ := (d_enough n).1 0 (t :: r) (by simp only [List.length_cons]; omega)
      rw [k1]
      exact ⟨_, _, _, rfl, k3 (by simp)⟩

theorem dStmts_enough (k n : Nat) (ts : List Tok) (hk : ts.length < k) (hn : 3 * ts.length + 3 ≤ n) :
    ∃ f e, dStmts k n ts = some (f, e) := by
  induction k generalizing ts with
  | zero => omega
  | succ k ih =>
    cases ts with
    | nil => exact ⟨_, _, rfl⟩
    | cons t r =>
      obtain ⟨f, e, r', h1, h2⟩ := dStmt_enough n (t :: r) (by simp) hn
      obtain ⟨f', e', h3⟩ := ih r' (by omega) (by omega)
      rw [dStmts, h1]
      simp only [h3]
      exact ⟨_, _, rfl⟩

/-! ## The parser follows -/

/-- `p'` comes after `p`: it has written the events `evs` and has the tokens `ts` left. -/
structure Goes (p p' : PState) (evs : List Event) (ts : List Tok) : Prop where
  events : p'.events = p.events ++ evs
  all : p'.all = p.all
  rest : sig p'.rest = ts

theorem Goes.trans {p q r : PState} {a b : List Event} {ts us : List Tok} (h : Goes p q a ts) (h' : Goes q r b us) :
    Goes p r (a ++ b) us :=
  ⟨by rw [h'.events, h.events, List.append_assoc], by rw [h'.all, h.all], h'.rest⟩

theorem sees_goes (p : PState) (k : TokKind) :
    Goes p (p.sees k).2 [] (sig p.rest) ∧ (p.sees k).1 = decide ((sig p.rest).head?.map Tok.kind = some k) := by
  refine ⟨⟨by simp [PState.sees, PState.skip], rfl, ?_⟩, ?_⟩
  · simp only [PState.sees, PState.skip, sig_dropWhile]
  · simp only [PState.sees, PState.peek, PState.skip, dropWhile_eq_sig_head]

theorem atEnd_goes (p : PState) : Goes p p.atEnd.2 [] (sig p.rest) ∧ p.atEnd.1 = (sig p.rest).isEmpty := by
  refine ⟨⟨by simp [PState.atEnd, PState.skip], rfl, ?_⟩, ?_⟩
  · simp only [PState.atEnd, PState.skip, sig_dropWhile]
  · simp only [PState.atEnd, PState.peek, PState.skip, dropWhile_eq_sig_head]
    cases sig p.rest <;> rfl

theorem bump_goes (p : PState) (t : Tok) (r : List Tok) (h : sig p.rest = t :: r) :
    ∃ p', p.bump = .ok p' ∧ Goes p p' [.addToken] r := by
  have hd := dropWhile_eq_sig_head p.rest
  rw [h] at hd
  cases hs : p.rest.dropWhile fun t => t.kind.isTrivia with
  | nil => rw [hs] at hd; cases hd
  | cons x xs =>
    have hset := settled_dropWhile p.rest
    have hsig := sig_dropWhile p.rest
    rw [hs] at hset hsig
    rw [sig_settled hset, h] at hsig
    refine ⟨{ p with rest := xs, events := p.events ++ [.addToken], expected := [] }, ?_, ⟨rfl, rfl, ?_⟩⟩
    · simp only [PState.bump, PState.skip, hs]
    · exact (List.cons.inj hsig).2

theorem start_goes (p : PState) : Goes p p.start.2 [.placeholder] (sig p.rest) ∧ p.start.1 = p.events.length :=
  ⟨⟨rfl, rfl, rfl⟩, rfl⟩

theorem complete_goes (p : PState) (pre inner : List Event) (k : SynKind) (h : p.events = pre ++ .placeholder :: inner) :
    ∃ p', p.complete pre.length k = .ok (pre.length, p') ∧
      p'.events = pre ++ .startNode k none :: (inner ++ [.finishNode]) ∧ p'.all = p.all ∧ sig p'.rest = sig p.rest := by
  refine ⟨{ p with events := p.events.set pre.length (.startNode k none) ++ [.finishNode] }, ?_, ?_, rfl, rfl⟩
  · simp only [PState.complete, h]
    rw [List.getElem?_append_right (Nat.le_refl _), Nat.sub_self]
    rfl
  · simp only [h]
    rw [List.set_append_right _ _ (Nat.le_refl _), Nat.sub_self]
    simp

theorem error_goes (p : PState) (h : p.all ≠ []) :
    ∃ p' evs, p.error = .ok p' ∧ Goes p p' evs (dError (sig p.rest)).2 ∧ Blk evs (dError (sig p.rest)).1 1 := by
  have hd := dropWhile_eq_sig_head p.rest
  cases hs : sig p.rest with
  | nil =>
    rw [hs] at hd
    have hn : (p.rest.dropWhile fun t => t.kind.isTrivia) = [] := by
      cases h' : p.rest.dropWhile fun t => t.kind.isTrivia with
      | nil => rfl
      | cons x xs => rw [h'] at hd; cases hd
    cases hl : p.all.getLast? with
    | none => exact absurd (List.getLast?_eq_none_iff.1 hl) h
    | some t =>
      refine ⟨⟨p.all, [], p.events ++ [.error ⟨p.expected, none, t.range⟩], []⟩, [.error ⟨p.expected, none, t.range⟩], ?_,
        ⟨rfl, rfl, rfl⟩, blk_error _⟩
      simp [PState.error, PState.pushError, PState.skip, hn, hl, PState.skipToken, PState.atEnd, PState.peek]
  | cons x xs =>
    rw [hs] at hd
    cases hn : p.rest.dropWhile fun t => t.kind.isTrivia with
    | nil => rw [hn] at hd; cases hd
    | cons y ys =>
      have hset := settled_dropWhile p.rest
      have hsig := sig_dropWhile p.rest
      rw [hn] at hset hsig
      have hset' := hset
      rw [sig_settled hset, hs] at hsig
      have hy : y.kind.isTrivia = false := hset y ys rfl
      let er : ParseErr := ⟨p.expected, some y.kind, y.range⟩
      refine ⟨⟨p.all, ys, p.events ++ [.error er] ++ [.startNode (.tok .error) none, .addToken, .finishNode], []⟩,
        [.error er] ++ (.startNode (.tok .error) none :: ([.addToken] ++ [.finishNode])), ?_,
        ⟨by simp, rfl, (List.cons.inj hsig).2⟩, ?_⟩
      · simp [PState.error, PState.pushError, PState.skip, hn, PState.skipToken, PState.atEnd, PState.peek, hy,
          PState.start, PState.bump, PState.complete, er]
      · have := (blk_error er).append (blk_node (.tok .error) (blk_token x.key))
        simpa [dError] using this

theorem expect_goes (p : PState) (k : TokKind) (h : p.all ≠ []) :
    ∃ p' evs, p.expect k = .ok p' ∧ Goes p p' evs (dExpect k (sig p.rest)).2.2 ∧
      Blk evs (dExpect k (sig p.rest)).1 (dExpect k (sig p.rest)).2.1 := by
  obtain ⟨s1, s2⟩ := sees_goes p k
  have hall : (p.sees k).2.all ≠ [] := by rw [s1.all]; exact h
  simp only [PState.expect]
  cases hs : sig p.rest with
  | nil =>
    have hb : (p.sees k).1 = false := by rw [s2, hs]; rfl
    rw [hb]
    obtain ⟨p', evs, h1, h2, h3⟩ := error_goes (p.sees k).2 hall
    rw [s1.rest, hs] at h2 h3
    exact ⟨p', [] ++ evs, by simpa using h1, s1.trans h2, by simpa [dExpect, dError] using h3⟩
  | cons t r =>
    by_cases hk : t.kind = k
    · have hb : (p.sees k).1 = true := by rw [s2, hs]; simp [hk]
      rw [hb]
      obtain ⟨p', h1, h2⟩ := bump_goes (p.sees k).2 t r (by rw [s1.rest, hs])
      refine ⟨p', [] ++ [.addToken], by simpa using h1, ?_, ?_⟩
      · simp only [dExpect, if_pos hk]; exact s1.trans h2
      · simp only [dExpect, if_pos hk]; exact blk_token t.key
    · have hb : (p.sees k).1 = false := by rw [s2, hs]; simp [hk]
      rw [hb]
      obtain ⟨p', evs, h1, h2, h3⟩ := error_goes (p.sees k).2 hall
      rw [s1.rest, hs] at h2 h3
      refine ⟨p', [] ++ evs, by simpa using h1, ?_, ?_⟩
      · simp only [dExpect, if_neg hk]; exact s1.trans h2
      · simp only [dExpect, if_neg hk]; exact h3

theorem sees_true {p : PState} {k : TokKind} {t : Tok} {r : List Tok} (h : sig p.rest = t :: r) :
    (p.sees k).1 = decide (t.kind = k) := by
  rw [(sees_goes p k).2, h]
  simp

theorem atom_goes (p : PState) (t : Tok) (r : List Tok) (h : sig p.rest = t :: r) :
    ∃ p', p.atom t.kind = .ok (p.events.length, p') ∧
      Goes p p' (.startNode (.tok t.kind) none :: ([.addToken] ++ [.finishNode])) r := by
  obtain ⟨s1, _⟩ := sees_goes p t.kind
  have hb : (p.sees t.kind).1 = true := by rw [sees_true h]; simp
  obtain ⟨a1, a2⟩ := start_goes (p.sees t.kind).2
  obtain ⟨p2, b1, b2⟩ := bump_goes (p.sees t.kind).2.start.2 t r (by rw [a1.rest, s1.rest, h])
  have he : p2.events = p.events ++ .placeholder :: [.addToken] := by
    rw [b2.events, a1.events, s1.events]; simp
  obtain ⟨p3, c1, c2, c3, c4⟩ := complete_goes p2 p.events [.addToken] (.tok t.kind) he
  refine ⟨p3, ?_, ⟨c2, ?_, ?_⟩⟩
  · simp only [PState.atom, hb, if_true]
    have : (p.sees t.kind).2.start.1 = p.events.length := by rw [a2, s1.events]; simp
    rw [this] at *
    simp only [b1, Outcome.bind_ok, c1]
  · rw [c3, b2.all, a1.all, s1.all]
  · rw [c4, b2.rest]

/-! ### Chains -/

/-- The place of the outermost node of a chain, counted from its first event. -/
def lastPos (inner : List Event) : List (List Event) → Nat
  | [] => 0
  | s :: ss => inner.length + 3 + lastPos s ss

/-- The events of a chain whose last node has been given a forward parent that is not there yet. -/
def chainOpen (k : SynKind) (inner : List Event) : List (List Event) → List Event
  | [] => .startNode k (some (inner.length + 3)) :: (inner ++ [.finishNode])
  | s :: ss => .startNode k (some (inner.length + 3)) :: (inner ++ .finishNode :: .addToken :: chainOpen .infixExpr s ss)

theorem chain_get (k : SynKind) (inner : List Event) (ss : List (List Event)) (tail : List Event) :
    ∃ k', (chain k inner ss ++ tail)[lastPos inner ss]? = some (.startNode k' none) ∧
      (chain k inner ss ++ tail).set (lastPos inner ss) (.startNode k' (some ((chain k inner ss).length + 1 - lastPos inner ss)))
        = chainOpen k inner ss ++ tail := by
  induction ss generalizing k inner with
  | nil =>
    refine ⟨k, rfl, ?_⟩
    simp [chain, chainOpen, lastPos]
  | cons s ss ih =>
    obtain ⟨k', h1, h2⟩ := ih .infixExpr s
    have e : chain k inner (s :: ss) ++ tail
        = (.startNode k (some (inner.length + 3)) :: (inner ++ [.finishNode, .addToken])) ++ (chain .infixExpr s ss ++ tail) := by
      simp [chain]
    have hl : (Event.startNode k (some (inner.length + 3)) :: (inner ++ [Event.finishNode, .addToken])).length = inner.length + 3 := by
      simp
    refine ⟨k', ?_, ?_⟩
    · rw [e, List.getElem?_append_right (by rw [hl]; simp [lastPos]), hl]
      have : lastPos inner (s :: ss) - (inner.length + 3) = lastPos s ss := by simp [lastPos]
      rw [this]; exact h1
    · have e3 : (chain k inner (s :: ss)).length + 1 - lastPos inner (s :: ss)
          = (chain .infixExpr s ss).length + 1 - lastPos s ss := by
        simp only [chain, lastPos, List.length_cons, List.length_append]; omega
      rw [e3, e, List.set_append_right _ _ (by rw [hl]; simp [lastPos]), hl]
      have : lastPos inner (s :: ss) - (inner.length + 3) = lastPos s ss := by simp [lastPos]
      rw [this, h2]
      simp [chainOpen]

theorem lastPos_lt (k : SynKind) (inner : List Event) (ss : List (List Event)) : lastPos inner ss < (chain k inner ss).length := by
  induction ss generalizing k inner with
  | nil => simp [lastPos, chain]
  | cons s ss ih =>
    have := ih .infixExpr s
    simp only [lastPos, chain, List.length_cons, List.length_append]; omega

theorem chain_snoc (k : SynKind) (inner : List Event) (ss : List (List Event)) (s : List Event) :
    chain k inner (ss ++ [s]) = chainOpen k inner ss ++ .addToken :: .startNode .infixExpr none :: (s ++ [.finishNode]) := by
  induction ss generalizing k inner with
  | nil => simp [chain, chainOpen]
  | cons x ss ih => simp [chain, chainOpen, ih]

theorem chainOpen_length (k : SynKind) (inner : List Event) (ss : List (List Event)) :
    (chainOpen k inner ss).length = (chain k inner ss).length := by
  induction ss generalizing k inner with
  | nil => simp [chain, chainOpen]
  | cons x ss ih => simp [chain, chainOpen, ih]

theorem lastPos_snoc (k : SynKind) (inner : List Event) (ss : List (List Event)) (s : List Event) :
    lastPos inner (ss ++ [s]) = (chain k inner ss).length + 1 := by
  induction ss generalizing k inner with
  | nil => simp [chain, lastPos]
  | cons x ss ih => simp only [chain, lastPos, List.cons_append, ih .infixExpr x, List.length_cons, List.length_append]; omega

theorem precede_goes (p : PState) (pre : List Event) (k : SynKind) (inner : List Event) (ss : List (List Event))
    (h : p.events = pre ++ (chain k inner ss ++ [.addToken])) :
    ∃ p', p.precede (pre.length + lastPos inner ss) = .ok (p.events.length, p') ∧
      p'.events = pre ++ (chainOpen k inner ss ++ [.addToken, .placeholder]) ∧ p'.all = p.all ∧ sig p'.rest = sig p.rest := by
  obtain ⟨k', h1, h2⟩ := chain_get k inner ss [.addToken, .placeholder]
  have he : p.start.2.events = pre ++ (chain k inner ss ++ [.addToken, .placeholder]) := by
    show p.events ++ [.placeholder] = _
    rw [h]; simp
  have hget : p.start.2.events[pre.length + lastPos inner ss]? = some (.startNode k' none) := by
    rw [he, List.getElem?_append_right (Nat.le_add_right _ _), Nat.add_sub_cancel_left]
    exact h1
  have hlen : p.events.length = pre.length + (chain k inner ss).length + 1 := by
    rw [h]; simp only [List.length_append, List.length_singleton]; omega
  refine ⟨{ p.start.2 with events := pre ++ (chainOpen k inner ss ++ [.addToken, .placeholder]) }, ?_, rfl, rfl, rfl⟩
  have hs : p.start = (p.events.length, p.start.2) := rfl
  simp only [PState.precede]
  rw [hs]
  simp only [hget]
  congr 3
  have : p.events.length - (pre.length + lastPos inner ss) = (chain k inner ss).length + 1 - lastPos inner ss := by
    have := lastPos_lt k inner ss
    omega
  rw [this, he, List.set_append_right _ _ (Nat.le_add_right _ _), Nat.add_sub_cancel_left, h2]

theorem operator_goes (p : PState) :
    Goes p p.operator.2 [] (sig p.rest) ∧ p.operator.1 = (sig p.rest).head?.bind fun t => opOfKind t.kind := by
  obtain ⟨a1, a2⟩ := sees_goes p .plus
  obtain ⟨b1, b2⟩ := sees_goes (p.sees .plus).2 .minus
  obtain ⟨c1, c2⟩ := sees_goes ((p.sees .plus).2.sees .minus).2 .star
  obtain ⟨d1, d2⟩ := sees_goes (((p.sees .plus).2.sees .minus).2.sees .star).2 .slash
  have r1 := a1.rest
  have r2 := b1.rest.trans r1
  have r3 := c1.rest.trans r2
  rw [r1] at b2
  rw [r2] at c2
  rw [r3] at d2
  have e2 := a1.trans b1
  have e3 := e2.trans c1
  have e4 := e3.trans d1
  rw [r1] at e2
  rw [r2] at e3
  rw [r3] at e4
  have key : ∀ k, (p.operator.1 = k → True) := fun _ _ => trivial
  unfold PState.operator
  simp only
  by_cases h1 : (p.sees .plus).1
  · rw [if_pos h1]
    refine ⟨a1, ?_⟩
    rw [a2] at h1
    cases hs : sig p.rest with
    | nil => rw [hs] at h1; simp at h1
    | cons t r => rw [hs] at h1; simp at h1; simp [h1, opOfKind]
  rw [if_neg h1]
  by_cases h2 : ((p.sees .plus).2.sees .minus).1
  · rw [if_pos h2]
    refine ⟨e2, ?_⟩
    rw [b2] at h2
    cases hs : sig p.rest with
    | nil => rw [hs] at h2; simp at h2
    | cons t r => rw [hs] at h2; simp at h2; simp [h2, opOfKind]
  rw [if_neg h2]
  by_cases h3 : (((p.sees .plus).2.sees .minus).2.sees .star).1
  · rw [if_pos h3]
    refine ⟨e3, ?_⟩
    rw [c2] at h3
    cases hs : sig p.rest with
    | nil => rw [hs] at h3; simp at h3
    | cons t r => rw [hs] at h3; simp at h3; simp [h3, opOfKind]
  rw [if_neg h3]
  by_cases h4 : ((((p.sees .plus).2.sees .minus).2.sees .star).2.sees .slash).1
  · rw [if_pos h4]
    refine ⟨e4, ?_⟩
    rw [d2] at h4
    cases hs : sig p.rest with
    | nil => rw [hs] at h4; simp at h4
    | cons t r => rw [hs] at h4; simp at h4; simp [h4, opOfKind]
  rw [if_neg h4]
  refine ⟨e4, ?_⟩
  rw [a2] at h1
  rw [b2] at h2
  rw [c2] at h3
  rw [d2] at h4
  cases hs : sig p.rest with
  | nil => rfl
  | cons t r =>
    rw [hs] at h1 h2 h3 h4
    simp at h1 h2 h3 h4
    cases hk : t.kind <;> simp_all [opOfKind]

/-- The chain of events of a result of `expr`. -/
def Good (p p' : PState) (r : Option Nat) (evs : List Event) (d : DRes) : Prop :=
  Goes p p' evs d.2.2.2 ∧ r.isSome = d.1.isSome ∧ Blk evs (d.1.toList ++ d.2.1) d.2.2.1

/-- The result of `lhs`: a node, completed and not yet preceded. -/
def GoodLhs (p p' : PState) (r : Option Nat) (evs : List Event) (d : DRes) : Prop :=
  Good p p' r evs d ∧ ∀ g, d.1 = some g → r = some p.events.length ∧ d.2.1 = [] ∧
    ∃ k inner f, evs = .startNode k none :: (inner ++ [.finishNode]) ∧ g = .node k f ∧ Blk inner f d.2.2.1

theorem sim (n : Nat) :
    (∀ min (p : PState) d, p.all ≠ [] → dExpr n min (sig p.rest) = some d → ∃ r p' evs, p.expr n min = .ok (r, p') ∧ Good p p' r evs d) ∧
    (∀ min (p : PState) pre k inner ss g e d, p.all ≠ [] → p.events = pre ++ chain k inner ss → ChainTree k inner ss g e →
      dLoop n min g e (sig p.rest) = some d → ∃ (r : Nat) (p' : PState) (ss' : List (List Event)) (g' : Green), p.infixLoop n min (pre.length + lastPos inner ss) = .ok (some r, p') ∧
        p'.events = pre ++ chain k inner ss' ∧ p'.all = p.all ∧ sig p'.rest = d.2.2.2 ∧ d.1 = some g' ∧ d.2.1 = [] ∧
        ChainTree k inner ss' g' d.2.2.1) ∧
    (∀ (p : PState) d, p.all ≠ [] → dLhs n (sig p.rest) = some d → ∃ r p' evs, p.lhs n = .ok (r, p') ∧ GoodLhs p p' r evs d) ∧
    (∀ (p : PState) t ts d, p.all ≠ [] → sig p.rest = t :: ts → t.kind = .minus → dPrefix n t ts = some d →
      ∃ r p' evs, p.prefixExpr n = .ok (r, p') ∧ GoodLhs p p' r evs d) ∧
    (∀ (p : PState) t ts d, p.all ≠ [] → sig p.rest = t :: ts → t.kind = .lParen → dParen n t ts = some d →
      ∃ r p' evs, p.parenExpr n = .ok (r, p') ∧ GoodLhs p p' r evs d) := by
  induction n with
  | zero =>
    refine ⟨?_, ?_, ?_, ?_, ?_⟩
    · intro min p d _ h; simp [dExpr] at h
    · intro min p pre k inner ss g e d _ _ _ h; simp [dLoop] at h
    · intro p d _ h; simp [dLhs] at h
    · intro p t ts d _ _ _ h; simp [dPrefix] at h
    · intro p t ts d _ _ _ h; simp [dParen] at h
  | succ n ih =>
    obtain ⟨ihE, ihL, ihH, ihP, ihQ⟩ := ih
    refine ⟨?_, ?_, ?_, ?_, ?_⟩
    · intro min p d hall h
      rw [dExpr] at h
      cases hl : dLhs n (sig p.rest) with
      | none => rw [hl] at h; simp at h
      | some d1 =>
        obtain ⟨r, p', evs, h1, h2, h3⟩ := ihH p d1 hall hl
        obtain ⟨g1, f1, e1, r1⟩ := d1
        rw [hl] at h
        cases g1 with
        | none =>
          simp only [Option.some.injEq] at h
          subst h
          have hr : r = none := by
            have := h2.2.1
            cases r with
            | none => rfl
            | some _ => simp at this
          subst hr
          exact ⟨none, p', evs, by simp [PState.expr, h1], h2⟩
        | some g =>
          simp only at h
          obtain ⟨k1, k2, k, inner, f, k3, k4, k5⟩ := h3 g rfl
          subst k1
          simp only at k2 k5
          subst k2
          have he : p'.events = p.events ++ chain k inner [] := by rw [h2.1.events, k3]; rfl
          have hrest : sig p'.rest = r1 := h2.1.rest
          rw [← hrest] at h
          have hct : ChainTree k inner [] g e1 := by rw [k4]; exact .base f e1 k5
          obtain ⟨r2, p2, ss', g', m1, m2, m3, m4, m5, m6, m7⟩ :=
            ihL min p' p.events k inner [] g e1 d (by rw [h2.1.all]; exact hall) he hct h
          refine ⟨some r2, p2, chain k inner ss', ?_, ⟨m2, by rw [m3, h2.1.all], m4⟩, ?_, ?_⟩
          · simp only [PState.expr, h1, Outcome.bind_ok]
            exact m1
          · rw [m5]; rfl
          · rw [m5, m6]; exact blk_chain m7
    · intro min p pre k inner ss g e d hall he hct h
      obtain ⟨o1, o2⟩ := operator_goes p
      have hoev : p.operator.2.events = p.events := by rw [o1.events]; simp
      rw [dLoop.eq_def] at h
      simp only at h
      simp only [PState.infixLoop]
      cases hs : sig p.rest with
      | nil =>
        rw [hs] at h o2 o1
        simp only [Option.some.injEq] at h
        subst h
        simp only [List.head?_nil, Option.bind_none] at o2
        rw [o2]
        exact ⟨_, _, ss, g, rfl, by rw [hoev, he], o1.all, o1.rest, rfl, rfl, hct⟩
      | cons t r =>
        rw [hs] at h o2 o1
        simp only [List.head?_cons, Option.bind_some] at o2
        rw [o2]
        cases ho : opOfKind t.kind with
        | none =>
          simp only [ho, Option.some.injEq] at h
          subst h
          exact ⟨_, _, ss, g, rfl, by rw [hoev, he], o1.all, o1.rest, rfl, rfl, hct⟩
        | some op =>
          simp only [ho] at h
          simp only
          by_cases hp : op.power.1 < min
          · rw [if_pos hp] at h
            simp only [Option.some.injEq] at h
            subst h
            rw [if_pos hp]
            exact ⟨_, _, ss, g, rfl, by rw [hoev, he], o1.all, o1.rest, rfl, rfl, hct⟩
          · rw [if_neg hp] at h
            rw [if_neg hp]
            obtain ⟨p1, b1, b2⟩ := bump_goes p.operator.2 t r o1.rest
            have e1 : p1.events = pre ++ (chain k inner ss ++ [.addToken]) := by
              rw [b2.events, hoev, he]; simp
            obtain ⟨p2, c1, c2, c3, c4⟩ := precede_goes p1 pre k inner ss e1
            cases hx : dExpr n op.power.2 r with
            | none => rw [hx] at h; simp at h
            | some d1 =>
              have hx' : dExpr n op.power.2 (sig p2.rest) = some d1 := by rw [c4, b2.rest]; exact hx
              obtain ⟨r3, p3, evs, x1, x2, x3, x4⟩ := ihE op.power.2 p2 d1
                (by rw [c3, b2.all, o1.all]; exact hall) hx'
              have e3 : p3.events = (pre ++ (chainOpen k inner ss ++ [.addToken])) ++ .placeholder :: evs := by
                rw [x2.events, c2]; simp
              obtain ⟨p4, y1, y2, y3, y4⟩ := complete_goes p3 _ evs .infixExpr e3
              have hlen : (pre ++ (chainOpen k inner ss ++ [Event.addToken])).length = p1.events.length := by
                rw [e1]; simp [chainOpen_length]
              have hpos : (pre ++ (chainOpen k inner ss ++ [Event.addToken])).length = pre.length + lastPos inner (ss ++ [evs]) := by
                rw [lastPos_snoc k]; simp [chainOpen_length]
              have e4 : p4.events = pre ++ chain k inner (ss ++ [evs]) := by
                rw [y2, chain_snoc]; simp
              obtain ⟨g1, f1, e5, r1⟩ := d1
              have hct' : ChainTree k inner (ss ++ [evs]) (.node .infixExpr (g :: leaf t.key :: (g1.toList ++ f1))) (e + e5) :=
                .snoc ss g e hct t.key evs _ e5 x4
              have hall4 : p4.all ≠ [] := by rw [y3, x2.all, c3, b2.all, o1.all]; exact hall
              have hrest4 : sig p4.rest = r1 := by rw [y4]; exact x2.rest
              rw [hx] at h
              simp only at h x3
              simp only [b1, Outcome.bind_ok, c1, x1]
              rw [← hlen, y1]
              simp only [Outcome.bind_ok]
              rw [x3]
              by_cases hg : g1.isSome
              · rw [if_pos hg] at h
                rw [if_pos hg, hpos]
                rw [← hrest4] at h
                obtain ⟨r6, p6, ss', g', m1, m2, m3, m4, m5, m6, m7⟩ := ihL min p4 pre k inner _ _ _ d hall4 e4 hct' h
                exact ⟨r6, p6, ss', g', m1, m2, by rw [m3, y3, x2.all, c3, b2.all, o1.all], m4, m5, m6, m7⟩
              · rw [if_neg hg] at h
                rw [if_neg hg]
                simp only [Option.some.injEq] at h
                subst h
                exact ⟨_, p4, ss ++ [evs], _, rfl, e4, by rw [y3, x2.all, c3, b2.all, o1.all], hrest4, rfl, rfl, hct'⟩
    · intro p d hall h
      obtain ⟨a1, a2⟩ := sees_goes p .intNumber
      have a3 : (p.sees .intNumber).2.events = p.events := by rw [a1.events]; simp
      obtain ⟨b1, b2⟩ := sees_goes (p.sees .intNumber).2 .longNumber
      have b1 := a1.trans b1
      rw [a1.rest] at b1 b2
      generalize hp2 : ((p.sees .intNumber).2.sees .longNumber).2 = p2 at *
      obtain ⟨c1, c2⟩ := sees_goes p2 .ident
      have c1 := b1.trans c1
      rw [b1.rest] at c1 c2
      generalize hp3 : (p2.sees .ident).2 = p3 at *
      obtain ⟨d1, d2⟩ := sees_goes p3 .minus
      have d1 := c1.trans d1
      rw [c1.rest] at d1 d2
      generalize hp4 : (p3.sees .minus).2 = p4 at *
      obtain ⟨e1, e2⟩ := sees_goes p4 .lParen
      have e1 := d1.trans e1
      rw [d1.rest] at e1 e2
      generalize hp5 : (p4.sees .lParen).2 = p5 at *
      have ev2 : p2.events = p.events := by rw [b1.events]; simp
      have ev3 : p3.events = p.events := by rw [c1.events]; simp
      have ev4 : p4.events = p.events := by rw [d1.events]; simp
      have ev5 : p5.events = p.events := by rw [e1.events]; simp
      have trans : ∀ {q q' : PState} {evs ts}, q.events = p.events → q.all = p.all → Goes q q' evs ts → Goes p q' evs ts :=
        fun h1 h2 h3 => ⟨by rw [h3.events, h1], by rw [h3.all, h2], h3.rest⟩
      have tr : ∀ {q q' : PState} {r evs d}, q.events = p.events → q.all = p.all → GoodLhs q q' r evs d → GoodLhs p q' r evs d :=
        fun h1 h2 h3 => ⟨⟨trans h1 h2 h3.1.1, h3.1.2⟩, by rw [← h1]; exact h3.2⟩
      rw [dLhs.eq_def] at h
      simp only at h
      simp only [PState.lhs]
      rw [hp2, hp3, hp4, hp5, a2, b2, c2, d2, e2]
      cases hs : sig p.rest with
      | nil =>
        rw [hs] at h
        simp only [Option.some.injEq] at h
        subst h
        obtain ⟨p', evs, h1, h2, h3⟩ := error_goes p5 (by rw [e1.all]; exact hall)
        rw [e1.rest, hs] at h2 h3
        refine ⟨none, p', evs, ?_, ⟨trans ev5 e1.all h2, rfl, h3⟩, ?_⟩
        · simp [h1]
        · intro g hg; cases hg
      | cons t r =>
        rw [hs] at h
        simp only [List.head?_cons, Option.map_some, Option.some.injEq, decide_eq_true_eq] at h ⊢
        have atomCase : ∀ (q : PState) (k : TokKind), t.kind = k → q.events = p.events → q.all = p.all → sig q.rest = t :: r →
            some (some (Green.node (.tok t.kind) [leaf t.key]), [], 0, r) = some d →
            ∃ r p' evs, (q.atom k >>= fun x => pure (some x.1, x.2)) = Outcome.ok (r, p') ∧ GoodLhs p p' r evs d := by
          intro q k hk h1 h2 h3 h4
          simp only [Option.some.injEq] at h4
          subst h4
          obtain ⟨p', x1, x2⟩ := atom_goes q t r h3
          rw [hk] at x1
          refine ⟨some q.events.length, p', _, by rw [x1]; rfl, ⟨trans h1 h2 x2, rfl, ?_⟩, ?_⟩
          · exact blk_node _ (blk_token t.key)
          · intro g hg
            simp only [Option.some.injEq] at hg
            subst hg
            exact ⟨by rw [h1], rfl, .tok t.kind, [.addToken], [leaf t.key], rfl, rfl, blk_token t.key⟩
        by_cases k1 : t.kind = .intNumber
        · rw [if_pos (Or.inl k1)] at h
          rw [if_pos k1]
          exact atomCase _ _ k1 a3 a1.all (by rw [a1.rest, hs]) h
        by_cases k2 : t.kind = .longNumber
        · rw [if_pos (Or.inr (Or.inl k2))] at h
          rw [if_neg k1, if_pos k2]
          exact atomCase _ _ k2 ev2 b1.all (by rw [b1.rest, hs]) h
        by_cases k3 : t.kind = .ident
        · rw [if_pos (Or.inr (Or.inr k3))] at h
          rw [if_neg k1, if_neg k2, if_pos k3]
          exact atomCase _ _ k3 ev3 c1.all (by rw [c1.rest, hs]) h
        rw [if_neg (by simp [k1, k2, k3])] at h
        rw [if_neg k1, if_neg k2, if_neg k3]
        by_cases k4 : t.kind = .minus
        · rw [if_pos k4] at h ⊢
          obtain ⟨r', p', evs, x1, x2⟩ := ihP p4 t r d (by rw [d1.all]; exact hall) (by rw [d1.rest, hs]) k4 h
          exact ⟨r', p', evs, x1, tr ev4 d1.all x2⟩
        rw [if_neg k4] at h ⊢
        by_cases k5 : t.kind = .lParen
        · rw [if_pos k5] at h ⊢
          obtain ⟨r', p', evs, x1, x2⟩ := ihQ p5 t r d (by rw [e1.all]; exact hall) (by rw [e1.rest, hs]) k5 h
          exact ⟨r', p', evs, x1, tr ev5 e1.all x2⟩
        rw [if_neg k5] at h ⊢
        simp only [Option.some.injEq] at h
        subst h
        obtain ⟨p', evs, h1, h2, h3⟩ := error_goes p5 (by rw [e1.all]; exact hall)
        rw [e1.rest, hs] at h2 h3
        refine ⟨none, p', evs, ?_, ⟨trans ev5 e1.all h2, rfl, by simpa using h3⟩, ?_⟩
        · simp [h1]
        · intro g hg; cases hg
    · intro p t ts d hall hs hk h
      obtain ⟨a1, a2⟩ := sees_goes p .minus
      have hb : (p.sees .minus).1 = true := by rw [sees_true hs]; simp [hk]
      obtain ⟨b1, b2⟩ := start_goes (p.sees .minus).2
      obtain ⟨p2, c1, c2⟩ := bump_goes (p.sees .minus).2.start.2 t ts (by rw [b1.rest, a1.rest, hs])
      rw [dPrefix] at h
      cases hx : dExpr n negPower ts with
      | none => rw [hx] at h; simp at h
      | some d1 =>
        rw [hx] at h
        obtain ⟨r3, p3, evs, x1, x2, x3, x4⟩ := ihE negPower p2 d1 (by rw [c2.all, b1.all, a1.all]; exact hall)
          (by rw [c2.rest]; exact hx)
        obtain ⟨g1, f1, e1, r1⟩ := d1
        simp only [Option.some.injEq] at h
        subst h
        have e3 : p3.events = p.events ++ .placeholder :: ([.addToken] ++ evs) := by
          rw [x2.events, c2.events, b1.events, a1.events]; simp
        obtain ⟨p4, y1, y2, y3, y4⟩ := complete_goes p3 p.events _ .prefixExpr e3
        have hblk : Blk ([.addToken] ++ evs) (leaf t.key :: (g1.toList ++ f1)) e1 := by
          have := (blk_token t.key).append x4
          simpa using this
        refine ⟨some p.events.length, p4, _, ?_, ⟨⟨y2, ?_, ?_⟩, rfl, blk_node .prefixExpr hblk⟩, ?_⟩
        · have hst : (p.sees .minus).2.start.1 = p.events.length := by rw [b2, a1.events]; simp
          simp only [PState.prefixExpr, hb, if_true, c1, Outcome.bind_ok, x1, hst, y1]
          rfl
        · rw [y3, x2.all, c2.all, b1.all, a1.all]
        · rw [y4]; exact x2.rest
        · intro g hg
          simp only [Option.some.injEq] at hg
          subst hg
          exact ⟨rfl, rfl, _, _, _, rfl, rfl, hblk⟩
    · intro p t ts d hall hs hk h
      obtain ⟨a1, a2⟩ := sees_goes p .lParen
      have hb : (p.sees .lParen).1 = true := by rw [sees_true hs]; simp [hk]
      obtain ⟨b1, b2⟩ := start_goes (p.sees .lParen).2
      obtain ⟨p2, c1, c2⟩ := bump_goes (p.sees .lParen).2.start.2 t ts (by rw [b1.rest, a1.rest, hs])
      rw [dParen] at h
      cases hx : dExpr n 0 ts with
      | none => rw [hx] at h; simp at h
      | some d1 =>
        rw [hx] at h
        obtain ⟨r3, p3, evs, x1, x2, x3, x4⟩ := ihE 0 p2 d1 (by rw [c2.all, b1.all, a1.all]; exact hall)
          (by rw [c2.rest]; exact hx)
        obtain ⟨g1, f1, e1, r1⟩ := d1
        simp only [Option.some.injEq] at h
        subst h
        obtain ⟨p5, evs5, z1, z2, z3⟩ := expect_goes p3 .rParen (by rw [x2.all, c2.all, b1.all, a1.all]; exact hall)
        rw [x2.rest] at z2 z3
        simp only at z2 z3 x4
        have e3 : p5.events = p.events ++ .placeholder :: ([.addToken] ++ (evs ++ evs5)) := by
          rw [z2.events, x2.events, c2.events, b1.events, a1.events]; simp
        obtain ⟨p4, y1, y2, y3, y4⟩ := complete_goes p5 p.events _ .parenExpr e3
        have hblk : Blk ([.addToken] ++ (evs ++ evs5)) (leaf t.key :: ((g1.toList ++ f1) ++ (dExpect .rParen r1).1))
            (e1 + (dExpect .rParen r1).2.1) := by
          have := (blk_token t.key).append (x4.append z3)
          simpa using this
        refine ⟨some p.events.length, p4, _, ?_, ⟨⟨y2, ?_, ?_⟩, rfl, blk_node .parenExpr hblk⟩, ?_⟩
        · have hst : (p.sees .lParen).2.start.1 = p.events.length := by rw [b2, a1.events]; simp
          simp only [PState.parenExpr, hb, if_true, c1, Outcome.bind_ok, x1, z1, hst, y1]
          rfl
        · rw [y3, z2.all, x2.all, c2.all, b1.all, a1.all]
        · rw [y4]; exact z2.rest
        · intro g hg
          simp only [Option.some.injEq] at hg
          subst hg
          exact ⟨rfl, rfl, _, _, _, rfl, rfl, hblk⟩

theorem sim_stmt (n : Nat) (p : PState) (d : List Green × Nat × List Tok) (hall : p.all ≠ [])
    (h : dStmt n (sig p.rest) = some d) : ∃ p' evs, p.stmt n = .ok p' ∧ Goes p p' evs d.2.2 ∧ Blk evs d.1 d.2.1 := by
  obtain ⟨a1, a2⟩ := sees_goes p .valKw
  have ev1 : (p.sees .valKw).2.events = p.events := by rw [a1.events]; simp
  cases hs : sig p.rest with
  | nil => rw [hs] at h; simp [dStmt] at h
  | cons t r =>
    rw [hs] at h
    simp only [dStmt] at h
    simp only [PState.stmt]
    by_cases hv : t.kind = .valKw
    · rw [if_pos hv] at h
      have hb : (p.sees .valKw).1 = true := by rw [sees_true hs]; simp [hv]
      rw [hb]
      simp only [if_true]
      generalize hq : (p.sees .valKw).2 = q at *
      have hqs : sig q.rest = t :: r := by rw [a1.rest, hs]
      obtain ⟨b1, b2⟩ := sees_goes q .valKw
      have hb' : (q.sees .valKw).1 = true := by rw [sees_true hqs]; simp [hv]
      obtain ⟨c1, c2⟩ := start_goes (q.sees .valKw).2
      obtain ⟨p2, f1, f2⟩ := bump_goes (q.sees .valKw).2.start.2 t r (by rw [c1.rest, b1.rest, hqs])
      have hall2 : p2.all ≠ [] := by rw [f2.all, c1.all, b1.all, a1.all]; exact hall
      obtain ⟨p3, ev3, g1, g2, g3⟩ := expect_goes p2 .ident hall2
      rw [f2.rest] at g2 g3
      obtain ⟨p4, ev4, i1, i2, i3⟩ := expect_goes p3 .equals (by rw [g2.all]; exact hall2)
      rw [g2.rest] at i2 i3
      cases hx : dExpr n 0 (dExpect .equals (dExpect .ident r).2.2).2.2 with
      | none => rw [hx] at h; simp at h
      | some d1 =>
        rw [hx] at h
        obtain ⟨r5, p5, evs, x1, x2, x3, x4⟩ := (sim n).1 0 p4 d1 (by rw [i2.all, g2.all]; exact hall2)
          (by rw [i2.rest]; exact hx)
        obtain ⟨gg, ff, ee, rr⟩ := d1
        simp only [Option.some.injEq] at h
        subst h
        have e3 : p5.events = p.events ++ .placeholder :: ([.addToken] ++ (ev3 ++ (ev4 ++ evs))) := by
          rw [x2.events, i2.events, g2.events, f2.events, c1.events, b1.events, ev1]; simp
        obtain ⟨p6, y1, y2, y3, y4⟩ := complete_goes p5 p.events _ .variableDef e3
        refine ⟨p6, _, ?_, ⟨y2, ?_, ?_⟩, ?_⟩
        · have hst : (q.sees .valKw).2.start.1 = p.events.length := by rw [c2, b1.events, ev1]; simp
          simp only [PState.variableDef, hb', if_true, f1, Outcome.bind_ok, g1, i1, x1, hst, y1]
          rfl
        · rw [y3, x2.all, i2.all, g2.all, f2.all, c1.all, b1.all, a1.all]
        · rw [y4]; exact x2.rest
        · have := blk_node .variableDef ((blk_token t.key).append (g3.append (i3.append x4)))
          simpa using this
    · rw [if_neg hv] at h
      have hb : (p.sees .valKw).1 = false := by rw [sees_true hs]; simp [hv]
      rw [hb]
      cases hx : dExpr n 0 (t :: r) with
      | none => rw [hx] at h; simp at h
      | some d1 =>
        rw [hx] at h
        obtain ⟨r5, p5, evs, x1, x2, x3, x4⟩ := (sim n).1 0 (p.sees .valKw).2 d1 (by rw [a1.all]; exact hall)
          (by rw [a1.rest, hs]; exact hx)
        obtain ⟨gg, ff, ee, rr⟩ := d1
        simp only [Option.some.injEq] at h
        subst h
        refine ⟨p5, evs, ?_, ⟨by rw [x2.events, ev1], by rw [x2.all, a1.all], x2.rest⟩, x4⟩
        simp [x1]

theorem sim_stmts (k n : Nat) (p : PState) (d : List Green × Nat) (hall : sig p.rest ≠ [] → p.all ≠ [])
    (h : dStmts k n (sig p.rest) = some d) : ∃ p' evs, p.stmts k n = .ok p' ∧ Goes p p' evs [] ∧ Blk evs d.1 d.2 := by
  induction k generalizing p d with
  | zero => simp [dStmts] at h
  | succ k ih =>
    obtain ⟨a1, a2⟩ := atEnd_goes p
    have ev1 : p.atEnd.2.events = p.events := by rw [a1.events]; simp
    simp only [PState.stmts]
    rw [a2]
    cases hs : sig p.rest with
    | nil =>
      rw [hs] at h
      simp only [dStmts, Option.some.injEq] at h
      subst h
      exact ⟨p.atEnd.2, [], rfl, by rw [← hs]; exact a1, blk_nil⟩
    | cons t r =>
      have ha := hall (by rw [hs]; simp)
      rw [hs] at h
      simp only [dStmts] at h
      cases h1 : dStmt n (t :: r) with
      | none => rw [h1] at h; simp at h
      | some d1 =>
        obtain ⟨f, e, r'⟩ := d1
        rw [h1] at h
        simp only at h
        obtain ⟨p', evs, x1, x2, x3⟩ := sim_stmt n p.atEnd.2 _ (by rw [a1.all]; exact ha) (by rw [a1.rest, hs]; exact h1)
        simp only at x2 x3
        cases h2 : dStmts k n r' with
        | none => rw [h2] at h; simp at h
        | some d2 =>
          obtain ⟨f', e'⟩ := d2
          rw [h2] at h
          simp only [Option.some.injEq] at h
          subst h
          obtain ⟨p'', evs', y1, y2, y3⟩ := ih p' (f', e') (fun _ => by rw [x2.all, a1.all]; exact ha) (by rw [x2.rest]; exact h2)
          refine ⟨p'', evs ++ evs', ?_, ?_, x3.append y3⟩
          · simp [x1, y1]
          · have := x2.trans y2
            exact ⟨by rw [this.events, ev1], by rw [this.all, a1.all], this.rest⟩

theorem dLhs_forest (n : Nat) (ts : List Tok) (d : DRes) (h : dLhs n ts = some d) (g : Green) (hg : d.1 = some g) : d.2.1 = [] := by
  cases n with
  | zero => simp [dLhs] at h
  | succ n =>
    rw [dLhs.eq_def] at h
    simp only at h
    cases ts with
    | nil =>
      simp only [Option.some.injEq] at h
      subst h
      cases hg
    | cons t r =>
      simp only at h
      split at h
      · simp only [Option.some.injEq] at h
        subst h
        rfl
      split at h
      · cases n with
        | zero => simp [dPrefix] at h
        | succ n =>
          rw [dPrefix] at h
          split at h
          · simp at h
          · simp only [Option.some.injEq] at h
            subst h
            rfl
      split at h
      · cases n with
        | zero => simp [dParen] at h
        | succ n =>
          rw [dParen] at h
          split at h
          · simp at h
          · simp only [Option.some.injEq] at h
            subst h
            rfl
      simp only [Option.some.injEq] at h
      subst h
      cases hg

theorem dExpect_leaves (k : TokKind) (ts : List Tok) :
    ts.map Tok.key = leavesOf (dExpect k ts).1 ++ (dExpect k ts).2.2.map Tok.key := by
  cases ts with
  | nil => rfl
  | cons t r =>
    simp only [dExpect]
    split
    · rfl
    · show _ = leavesOf [.node (.tok .error) [leaf t.key]] ++ r.map Tok.key
      rw [leavesOf_node]; rfl

theorem d_leaves (n : Nat) :
    (∀ min ts d, dExpr n min ts = some d → ts.map Tok.key = leavesOf (d.1.toList ++ d.2.1) ++ d.2.2.2.map Tok.key) ∧
    (∀ min g e ts d, dLoop n min g e ts = some d →
      leavesOf [g] ++ ts.map Tok.key = leavesOf (d.1.toList ++ d.2.1) ++ d.2.2.2.map Tok.key) ∧
    (∀ ts d, dLhs n ts = some d → ts.map Tok.key = leavesOf (d.1.toList ++ d.2.1) ++ d.2.2.2.map Tok.key) ∧
    (∀ t r d, dPrefix n t r = some d → t.key :: r.map Tok.key = leavesOf (d.1.toList ++ d.2.1) ++ d.2.2.2.map Tok.key) ∧
    (∀ t r d, dParen n t r = some d → t.key :: r.map Tok.key = leavesOf (d.1.toList ++ d.2.1) ++ d.2.2.2.map Tok.key) := by
  induction n with
  | zero =>
    refine ⟨?_, ?_, ?_, ?_, ?_⟩
    · intro min ts d h; simp [dExpr] at h
    · intro min g e ts d h; simp [dLoop] at h
    · intro ts d h; simp [dLhs] at h
    · intro t r d h; simp [dPrefix] at h
    · intro t r d h; simp [dParen] at h
  | succ n ih =>
    obtain ⟨ihE, ihL, ihH, ihP, ihQ⟩ := ih
    refine ⟨?_, ?_, ?_, ?_, ?_⟩
    · intro min ts d h
      rw [dExpr] at h
      cases hl : dLhs n ts with
      | none => rw [hl] at h; simp at h
      | some d1 =>
        have h1 := ihH ts d1 hl
        rw [hl] at h
        obtain ⟨g1, f1, e1, r1⟩ := d1
        cases g1 with
        | none =>
          simp only [Option.some.injEq] at h
          subst h
          exact h1
        | some g =>
          simp only at h
          have hf : f1 = [] := dLhs_forest _ _ _ hl g rfl
          subst hf
          rw [h1]
          exact ihL _ _ _ _ _ h
    · intro min g e ts d h
      rw [dLoop.eq_def] at h
      simp only at h
      cases ts with
      | nil =>
        simp only [Option.some.injEq] at h
        subst h
        simp
      | cons t r =>
        simp only at h
        cases ho : opOfKind t.kind with
        | none =>
          simp only [ho, Option.some.injEq] at h
          subst h
          simp
        | some op =>
          simp only [ho] at h
          split at h
          · simp only [Option.some.injEq] at h
            subst h
            simp
          · cases hx : dExpr n op.power.2 r with
            | none => rw [hx] at h; simp at h
            | some d1 =>
              have h1 := ihE _ _ _ hx
              rw [hx] at h
              obtain ⟨g1, f1, e1, r1⟩ := d1
              simp only at h h1
              have e : leavesOf [g] ++ List.map Tok.key (t :: r)
                  = leavesOf [.node .infixExpr (g :: leaf t.key :: (g1.toList ++ f1))] ++ r1.map Tok.key := by
                rw [leavesOf_node]
                show _ = leavesOf ([g] ++ ([leaf t.key] ++ (g1.toList ++ f1))) ++ _
                rw [leavesOf_append, leavesOf_append, leavesOf_leaf, List.map_cons, h1]
                simp
              rw [e]
              split at h
              · exact ihL _ _ _ _ _ h
              · simp only [Option.some.injEq] at h
                subst h
                simp
    · intro ts d h
      rw [dLhs.eq_def] at h
      simp only at h
      cases ts with
      | nil =>
        simp only [Option.some.injEq] at h
        subst h
        rfl
      | cons t r =>
        simp only at h
        split at h
        · simp only [Option.some.injEq] at h
          subst h
          show _ = leavesOf [.node _ [leaf t.key]] ++ _
          rw [leavesOf_node]; rfl
        split at h
        · exact ihP _ _ _ h
        split at h
        · exact ihQ _ _ _ h
        simp only [Option.some.injEq] at h
        subst h
        show _ = leavesOf [.node _ [leaf t.key]] ++ _
        rw [leavesOf_node]; rfl
    · intro t r d h
      rw [dPrefix] at h
      cases hx : dExpr n negPower r with
      | none => rw [hx] at h; simp at h
      | some d1 =>
        have h1 := ihE _ _ _ hx
        rw [hx] at h
        obtain ⟨g1, f1, e1, r1⟩ := d1
        simp only [Option.some.injEq] at h
        subst h
        simp only at h1 ⊢
        show _ = leavesOf ([.node .prefixExpr (leaf t.key :: (g1.toList ++ f1))] ++ []) ++ _
        rw [List.append_nil, leavesOf_node]
        show _ = leavesOf ([leaf t.key] ++ (g1.toList ++ f1)) ++ _
        rw [leavesOf_append, leavesOf_leaf, h1]
        simp
    · intro t r d h
      rw [dParen] at h
      cases hx : dExpr n 0 r with
      | none => rw [hx] at h; simp at h
      | some d1 =>
        have h1 := ihE _ _ _ hx
        rw [hx] at h
        obtain ⟨g1, f1, e1, r1⟩ := d1
        simp only [Option.some.injEq] at h
        subst h
        simp only at h1 ⊢
        show _ = leavesOf ([.node .parenExpr (leaf t.key :: ((g1.toList ++ f1) ++ (dExpect .rParen r1).1))] ++ []) ++ _
        rw [List.append_nil, leavesOf_node]
        show _ = leavesOf ([leaf t.key] ++ ((g1.toList ++ f1) ++ (dExpect .rParen r1).1)) ++ _
        rw [leavesOf_append, leavesOf_append (g1.toList ++ f1), leavesOf_leaf, h1, dExpect_leaves .rParen r1]
        simp

theorem dStmt_leaves (n : Nat) (ts : List Tok) (d : List Green × Nat × List Tok) (h : dStmt n ts = some d) :
    ts.map Tok.key = leavesOf d.1 ++ d.2.2.map Tok.key := by
  cases ts with
  | nil => simp [dStmt] at h
  | cons t r =>
    simp only [dStmt] at h
    split at h
    · cases hx : dExpr n 0 (dExpect .equals (dExpect .ident r).2.2).2.2 with
      | none => rw [hx] at h; simp at h
      | some d1 =>
        have h1 := (d_leaves n).1 _ _ _ hx
        rw [hx] at h
        obtain ⟨g1, f1, e1, r1⟩ := d1
        simp only [Option.some.injEq] at h
        subst h
        simp only at h1 ⊢
        rw [leavesOf_node]
        show _ = leavesOf ([leaf t.key] ++ ((dExpect .ident r).1 ++ ((dExpect .equals (dExpect .ident r).2.2).1 ++ (g1.toList ++ f1)))) ++ _
        rw [leavesOf_append, leavesOf_append, leavesOf_append, leavesOf_leaf, List.map_cons, dExpect_leaves .ident r,
          dExpect_leaves .equals, h1]
        simp
    · cases hx : dExpr n 0 (t :: r) with
      | none => rw [hx] at h; simp at h
      | some d1 =>
        have h1 := (d_leaves n).1 _ _ _ hx
        rw [hx] at h
        obtain ⟨g1, f1, e1, r1⟩ := d1
        simp only [Option.some.injEq] at h
        subst h
        exact h1

theorem dStmts_leaves (k n : Nat) (ts : List Tok) (d : List Green × Nat) (h : dStmts k n ts = some d) :
    ts.map Tok.key = leavesOf d.1 := by
  induction k generalizing ts d with
  | zero => simp [dStmts] at h
  | succ k ih =>
    cases ts with
    | nil =>
      simp only [dStmts, Option.some.injEq] at h
      subst h
      rfl
    | cons t r =>
      simp only [dStmts] at h
      cases h1 : dStmt n (t :: r) with
      | none => rw [h1] at h; simp at h
      | some d1 =>
        obtain ⟨f, e, r'⟩ := d1
        rw [h1] at h
        simp only at h
        cases h2 : dStmts k n r' with
        | none => rw [h2] at h; simp at h
        | some d2 =>
          obtain ⟨f', e'⟩ := d2
          rw [h2] at h
          simp only [Option.some.injEq] at h
          subst h
          rw [dStmt_leaves n _ _ h1, ih _ _ h2, leavesOf_append]

/-! ## The whole parser -/

/-- The trees and the number of errors of a list of tokens. -/
def direct (toks : List Tok) : Option (List Green × Nat) := dStmts (toks.length + 1) (3 * toks.length + 3) (sig toks)

theorem sig_length (toks : List Tok) : (sig toks).length ≤ toks.length := List.length_filter_le _ _

theorem direct_some (toks : List Tok) : ∃ f e, direct toks = some (f, e) := by
  have := sig_length toks
  exact dStmts_enough _ _ _ (by omega) (by omega)

theorem parse_direct (input : List Char) (f : List Green) (e : Nat) (h : direct (lex input) = some (f, e)) :
    ∃ w f' errs, TriviaRow w ∧ Decor f f' ∧ errs.length = e ∧ parse input = .ok (.node .root (w ++ f'), errs) ∧
      (lex input).map Tok.key = leavesOf (w ++ f') := by
  generalize ht : lex input = toks at *
  let p0 : PState := ⟨toks, toks, [], []⟩
  obtain ⟨a1, a2⟩ := start_goes p0
  have hrest : sig p0.start.2.rest = sig toks := rfl
  obtain ⟨p1, evs, b1, b2, b3⟩ := sim_stmts (toks.length + 1) (3 * toks.length + 3) p0.start.2 (f, e)
    (by intro h1 h2; exact h1 (by show sig toks = []; rw [show toks = [] from h2]; rfl)) h
  have e1 : p1.events = [] ++ .placeholder :: evs := by rw [b2.events]; rfl
  obtain ⟨p2, c1, c2, c3, c4⟩ := complete_goes p1 [] evs .root e1
  have hev : parseEvents toks = .ok (.startNode .root none :: (evs ++ [.finishNode])) := by
    simp only [parseEvents, PState.rootNode]
    have hs : (p0.start.1, p0.start.2) = (0, p0.start.2) := rfl
    show ((PState.stmts (toks.length + 1) (3 * toks.length + 3) p0.start.2 >>= fun p => (do
      let (_, p) ← p.complete 0 .root
      pure p)) >>= fun p => pure p.events) = _
    rw [b1]
    simp only [Outcome.bind_ok]
    rw [show (0 : Nat) = ([] : List Event).length from rfl, c1]
    simp only [Outcome.bind_ok, Outcome.pure_eq, c2]
    rfl
  let s0 : Sink := ⟨[(.root, 0)], (toks.takeWhile fun t => t.kind.isTrivia).map fun t => .token t.kind t.text,
    toks.dropWhile fun t => t.kind.isTrivia, []⟩
  have hs0 : Settled s0.toks := settled_dropWhile toks
  have hu : (sig s0.toks).map Tok.key = leavesOf f ++ [] := by
    rw [List.append_nil]
    show (sig (toks.dropWhile fun t => t.kind.isTrivia)).map Tok.key = _
    rw [sig_dropWhile]
    exact dStmts_leaves _ _ _ _ h
  obtain ⟨f', ts', errs, d1, d2, d3, d4, d5, d6⟩ := b3 [.finishNode] 1 s0 [] hs0 hu
  have hts' : ts' = [] := by
    cases ts' with
    | nil => rfl
    | cons x xs =>
      rw [sig_settled d5] at d6
      simp at d6
  subst hts'
  refine ⟨(toks.takeWhile fun t => t.kind.isTrivia).map fun t => .token t.kind t.text, f', errs, keys_trivia toks, d3, d2, ?_, ?_⟩
  · simp only [parse, ht, hev, Outcome.bind_ok, sink]
    have hl : (Event.startNode SynKind.root none :: (evs ++ [Event.finishNode])).length = (evs.length + 1) + 1 := by simp
    rw [hl]
    have hrun : Sink.run (evs.length + 1 + 1) (Event.startNode SynKind.root none :: (evs ++ [Event.finishNode])) ⟨[], [], toks, []⟩
        = Sink.run (evs.length + 1) (evs ++ [Event.finishNode]) s0 := by
      have hw : Sink.walk (evs ++ [Event.finishNode]).length 0 none (evs ++ [Event.finishNode])
          = .ok ([], evs ++ [Event.finishNode]) := by
        cases (evs ++ [Event.finishNode]).length <;> rfl
      simp only [Sink.run, Sink.step, hw, Outcome.bind_ok, Outcome.pure_eq]
      rfl
    rw [hrun, d1]
    simp [Sink.run, Sink.step, Sink.close, s0, Sink.eatTrivia, Sink.result]
  · simp only [s0] at d4
    rw [leavesOf_append, leavesOf_map_token]
    rw [List.map_nil, List.append_nil] at d4
    rw [← d4, ← List.map_append, List.takeWhile_append_dropWhile]

end Script
end Verif
