import Verif.Model.ScriptParser

/-!
# Events of the ErgoScript parser: what the sink makes of them
-/

set_option linter.unusedSimpArgs false
set_option linter.unusedVariables false

namespace Verif
namespace Script

/-- A token without its position. -/
abbrev Leaf := TokKind × List Char

/-- The kind and the text of a token. -/
def Tok.key (t : Tok) : Leaf := (t.kind, t.text)

/-- The tokens that are not trivia. -/
def sig (l : List Tok) : List Tok := l.filter fun t => !t.kind.isTrivia

/-- A token as a leaf of the tree. -/
def leaf (t : Leaf) : Green := .token t.1 t.2

/-- The leaves of a tree and of a row of trees. -/
def Green.leaves : Green → List Leaf
  | .token k t => [(k, t)]
  | .node _ cs => leavesL cs
where
  leavesL : List Green → List Leaf
    | [] => []
    | g :: gs => Green.leaves g ++ leavesL gs

abbrev leavesOf (f : List Green) : List Leaf := Green.leaves.leavesL f

theorem leavesOf_append (f g : List Green) : leavesOf (f ++ g) = leavesOf f ++ leavesOf g := by
  induction f with
  | nil => rfl
  | cons x f ih =>
    show Green.leaves x ++ leavesOf (f ++ g) = Green.leaves x ++ leavesOf f ++ leavesOf g
    rw [ih, List.append_assoc]

theorem leavesOf_leaf (t : Leaf) : leavesOf [leaf t] = [t] := rfl
theorem leavesOf_node (k : SynKind) (f : List Green) : leavesOf [.node k f] = leavesOf f := by
  show leavesOf f ++ [] = leavesOf f
  simp

/-- A row of leaves is a row of trivia. -/
def TriviaRow (l : List Green) : Prop := ∃ ts : List Leaf, (∀ t ∈ ts, t.1.isTrivia = true) ∧ l = ts.map leaf

mutual
/-- `Decor f f'`: `f'` is `f` with trivia after some of its leaves. -/
inductive Decor : List Green → List Green → Prop
  | nil : Decor [] []
  | leaf (t : Leaf) (h : t.1.isTrivia = false) (w : List Green) (hw : TriviaRow w) (f f' : List Green) (hf : Decor f f') :
      Decor (leaf t :: f) (leaf t :: (w ++ f'))
  | node (k : SynKind) (c c' : List Green) (hc : Decor c c') (f f' : List Green) (hf : Decor f f') :
      Decor (.node k c :: f) (.node k c' :: f')
end

theorem Decor.append {a a' b b' : List Green} (h : Decor a a') (h' : Decor b b') : Decor (a ++ b) (a' ++ b') := by
  induction h with
  | nil => exact h'
  | leaf t ht w hw f f' hf ih =>
    have := Decor.leaf t ht w hw _ _ ih
    simpa using this
  | node k c c' hc f f' hf _ ih =>
    have := Decor.node k c c' hc _ _ ih
    simpa using this

/-- No trivia are waiting. -/
def Settled (ts : List Tok) : Prop := ∀ t r, ts = t :: r → t.kind.isTrivia = false

theorem settled_dropWhile (ts : List Tok) : Settled (ts.dropWhile fun t => t.kind.isTrivia) := by
  induction ts with
  | nil => intro t r h; cases h
  | cons x ts ih =>
    rw [List.dropWhile_cons]
    split
    · exact ih
    · rename_i hx
      intro t r h
      cases h
      simpa using hx

theorem settled_drop_id {ts : List Tok} (h : Settled ts) : (ts.dropWhile fun t => t.kind.isTrivia) = ts ∧
    (ts.takeWhile fun t => t.kind.isTrivia) = [] := by
  cases ts with
  | nil => exact ⟨rfl, rfl⟩
  | cons t r =>
    have := h t r rfl
    simp [List.dropWhile_cons, List.takeWhile_cons, this]

theorem sig_dropWhile (ts : List Tok) : sig (ts.dropWhile fun t => t.kind.isTrivia) = sig ts := by
  induction ts with
  | nil => rfl
  | cons x ts ih =>
    rw [List.dropWhile_cons]
    split
    · rename_i hx
      rw [ih]
      simp [sig, hx]
    · rfl

theorem sig_settled {t : Tok} {r : List Tok} (h : Settled (t :: r)) : sig (t :: r) = t :: sig r := by
  have := h t r rfl
  simp [sig, this]

theorem dropWhile_eq_sig_head (ts : List Tok) :
    (ts.dropWhile fun t => t.kind.isTrivia).head? = (sig ts).head? := by
  induction ts with
  | nil => rfl
  | cons x ts ih =>
    rw [List.dropWhile_cons]
    split
    · rename_i hx
      rw [ih]
      simp [sig, hx]
    · rename_i hx
      have : x.kind.isTrivia = false := by simpa using hx
      simp [sig, this]

/-! ## Blocks of events -/

/-- The events `evs` make the sink add the trees `f`, with trivia in between, and `n` errors, whatever comes after them. -/
def Blk (evs : List Event) (f : List Green) (n : Nat) : Prop :=
  ∀ (tail : List Event) (m : Nat) (s : Sink) (u : List Leaf), Settled s.toks → (sig s.toks).map Tok.key = leavesOf f ++ u →
    ∃ (f' : List Green) (ts' : List Tok) (errs : List ParseErr),
      Sink.run (evs.length + m) (evs ++ tail) s
        = Sink.run m tail ⟨s.parents, s.children ++ f', ts', s.errors ++ errs⟩ ∧
      errs.length = n ∧ Decor f f' ∧ s.toks.map Tok.key = leavesOf f' ++ ts'.map Tok.key ∧ Settled ts' ∧
      (sig ts').map Tok.key = u

theorem Sink.eatTrivia_settled {s : Sink} (h : Settled s.toks) : s.eatTrivia = s := by
  unfold Sink.eatTrivia
  rw [(settled_drop_id h).1, (settled_drop_id h).2]
  simp

theorem blk_nil : Blk [] [] 0 := by
  intro tail m s u hs hu
  refine ⟨[], s.toks, [], ?_, rfl, .nil, ?_, hs, ?_⟩
  · simp
  · simp [Green.leaves.leavesL]
  · simpa [Green.leaves.leavesL] using hu

theorem Blk.append {a b : List Event} {f g : List Green} {n m : Nat} (ha : Blk a f n) (hb : Blk b g m) :
    Blk (a ++ b) (f ++ g) (n + m) := by
  intro tail k s u hs hu
  rw [leavesOf_append, List.append_assoc] at hu
  obtain ⟨f', ts', errs, h1, h2, h3, h4, h5, h6⟩ := ha (b ++ tail) (b.length + k) s _ hs hu
  obtain ⟨g', ts'', errs', k1, k2, k3, k4, k5, k6⟩ :=
    hb tail k ⟨s.parents, s.children ++ f', ts', s.errors ++ errs⟩ u h5 h6
  refine ⟨f' ++ g', ts'', errs ++ errs', ?_, ?_, h3.append k3, ?_, k5, k6⟩
  · rw [List.length_append, List.append_assoc, Nat.add_assoc, h1, k1]
    simp
  · simp [h2, k2]
  · rw [h4, leavesOf_append]
    simp only at k4
    rw [k4, List.append_assoc]

theorem takeWhile_mem {α : Type} (p : α → Bool) (l : List α) (x : α) (h : x ∈ l.takeWhile p) : p x = true := by
  induction l with
  | nil => simp at h
  | cons y l ih =>
    rw [List.takeWhile_cons] at h
    split at h
    · rename_i hy
      rcases List.mem_cons.1 h with rfl | h
      · exact hy
      · exact ih h
    · simp at h

theorem keys_trivia (ts : List Tok) :
    TriviaRow ((ts.takeWhile fun t => t.kind.isTrivia).map fun t => Green.token t.kind t.text) := by
  refine ⟨(ts.takeWhile fun t => t.kind.isTrivia).map Tok.key, ?_, ?_⟩
  · intro t ht
    rw [List.mem_map] at ht
    obtain ⟨x, hx, rfl⟩ := ht
    exact takeWhile_mem (fun t : Tok => t.kind.isTrivia) _ _ hx
  · simp [leaf, Tok.key]

theorem leavesOf_map_leaf (l : List Leaf) : leavesOf (l.map leaf) = l := by
  induction l with
  | nil => rfl
  | cons x l ih =>
    show [x] ++ leavesOf (l.map leaf) = x :: l
    rw [ih]; rfl

theorem leavesOf_map_token (l : List Tok) : leavesOf (l.map fun t => Green.token t.kind t.text) = l.map Tok.key := by
  rw [← leavesOf_map_leaf (l.map Tok.key), List.map_map]
  rfl

theorem blk_token (t : Leaf) : Blk [.addToken] [leaf t] 0 := by
  intro tail m s u hs hu
  cases hts : s.toks with
  | nil => rw [hts] at hu; cases hu
  | cons x r =>
    rw [hts] at hs hu
    rw [sig_settled hs] at hu
    simp only [List.map_cons, leavesOf_leaf, List.cons_append, List.nil_append, List.cons.injEq] at hu
    refine ⟨leaf t :: (r.takeWhile fun t => t.kind.isTrivia).map fun t => Green.token t.kind t.text,
      r.dropWhile fun t => t.kind.isTrivia, [], ?_, rfl, ?_, ?_, settled_dropWhile r, ?_⟩
    · rw [Nat.add_comm]
      simp [Sink.run, Sink.step, Sink.token, hts, Sink.eatTrivia, ← hu.1, leaf, Tok.key]
    · have := Decor.leaf t (by rw [← hu.1]; exact hs x r rfl) _ (keys_trivia r) [] [] .nil
      simpa using this
    · show x.key :: r.map Tok.key = _
      have e : leavesOf (leaf t :: (r.takeWhile fun t => t.kind.isTrivia).map fun t => Green.token t.kind t.text)
          = t :: (r.takeWhile fun t => t.kind.isTrivia).map Tok.key := by
        show [t] ++ leavesOf _ = _
        rw [leavesOf_map_token]; rfl
      rw [e, hu.1, List.cons_append, ← List.map_append, List.takeWhile_append_dropWhile]
    · rw [sig_dropWhile]; exact hu.2

theorem blk_error (e : ParseErr) : Blk [.error e] [] 1 := by
  intro tail m s u hs hu
  refine ⟨[], s.toks, [e], ?_, rfl, .nil, ?_, hs, ?_⟩
  · rw [Nat.add_comm]
    simp [Sink.run, Sink.step]
    congr 1
    exact Sink.eatTrivia_settled (s := ⟨s.parents, s.children, s.toks, s.errors ++ [e]⟩) hs
  · simp [Green.leaves.leavesL]
  · simpa [Green.leaves.leavesL] using hu

/-! ## Chains of forward parents -/

/-- The events of an operand and of the infix expressions around it: each start event points to the next. -/
def chain (k : SynKind) (inner : List Event) : List (List Event) → List Event
  | [] => .startNode k none :: (inner ++ [.finishNode])
  | s :: ss => .startNode k (some (inner.length + 3)) :: (inner ++ .finishNode :: .addToken :: chain .infixExpr s ss)

/-- The events of `chain` after the first one, when the sink has walked through the forward parents. -/
def body (inner : List Event) : List (List Event) → List Event
  | [] => inner ++ [.finishNode]
  | s :: ss => inner ++ .finishNode :: .addToken :: .placeholder :: body s ss

theorem chain_eq (k : SynKind) (inner : List Event) (ss : List (List Event)) :
    ∃ fp rest, chain k inner ss = .startNode k fp :: rest ∧ rest.length = (body inner ss).length ∧
      ∀ (pre tail : List Event) (n : Nat), ss.length ≤ n →
        Sink.walk n pre.length fp (pre ++ rest ++ tail) = .ok (List.replicate ss.length .infixExpr, pre ++ body inner ss ++ tail) := by
  induction ss generalizing k inner with
  | nil =>
    refine ⟨none, _, rfl, rfl, ?_⟩
    intro pre tail n hn
    cases n <;> rfl
  | cons s ss ih =>
    obtain ⟨fp, rest, h1, h2, h3⟩ := ih .infixExpr s
    refine ⟨some (inner.length + 3), inner ++ .finishNode :: .addToken :: chain .infixExpr s ss, rfl, ?_, ?_⟩
    · rw [h1]; simp [body, h2]
    · intro pre tail n hn
      cases n with
      | zero => simp at hn
      | succ n =>
        have e : pre ++ (inner ++ .finishNode :: .addToken :: chain .infixExpr s ss) ++ tail
            = (pre ++ inner ++ [.finishNode, .addToken]) ++ .startNode .infixExpr fp :: (rest ++ tail) := by
          rw [h1]; simp
        rw [e]
        have hl : (pre ++ inner ++ [Event.finishNode, .addToken]).length = pre.length + inner.length + 2 := by
          simp; omega
        have e2 : pre.length + (inner.length + 3) = (pre ++ inner ++ [Event.finishNode, .addToken]).length + 1 := by
          rw [hl]; omega
        rw [Sink.walk, e2]
        simp only
        rw [List.getElem?_append_right (Nat.le_refl _), Nat.sub_self]
        simp only [List.getElem?_cons_zero]
        rw [List.set_append_right _ _ (Nat.le_refl _), Nat.sub_self]
        simp only [List.set_cons_zero]
        have h4 := h3 (pre ++ inner ++ [Event.finishNode, .addToken] ++ [.placeholder]) tail n (by simpa using hn)
        have e3 : (pre ++ inner ++ [Event.finishNode, .addToken] ++ [Event.placeholder]).length
            = (pre ++ inner ++ [Event.finishNode, .addToken]).length + 1 := by
          rw [List.length_append, List.length_singleton]
        rw [e3] at h4
        have e4 : pre ++ inner ++ [Event.finishNode, .addToken] ++ Event.placeholder :: (rest ++ tail)
            = pre ++ inner ++ [Event.finishNode, .addToken] ++ [.placeholder] ++ rest ++ tail := by simp
        rw [e4, h4]
        simp [body, List.replicate_succ]

/-- The tree of a chain: operand and infix expressions. -/
inductive ChainTree (k : SynKind) (inner : List Event) : List (List Event) → Green → Nat → Prop
  | base (f : List Green) (n : Nat) (h : Blk inner f n) : ChainTree k inner [] (.node k f) n
  | snoc (ss : List (List Event)) (g : Green) (n : Nat) (hg : ChainTree k inner ss g n) (t : Leaf) (s : List Event) (f : List Green)
      (m : Nat) (h : Blk s f m) : ChainTree k inner (ss ++ [s]) (.node .infixExpr (g :: leaf t :: f)) (n + m)

theorem body_snoc (inner : List Event) (ss : List (List Event)) (s : List Event) :
    body inner (ss ++ [s]) = body inner ss ++ .addToken :: .placeholder :: (s ++ [.finishNode]) := by
  induction ss generalizing inner with
  | nil => simp [body]
  | cons x ss ih => simp [body, ih]

theorem run_finish (m : Nat) (tail : List Event) (k : SynKind) (ps : List (SynKind × Nat)) (c f : List Green) (ts : List Tok)
    (errs : List ParseErr) (h : Settled ts) :
    Sink.run (m + 1) (.finishNode :: tail) ⟨(k, c.length) :: ps, c ++ f, ts, errs⟩
      = Sink.run m tail ⟨ps, c ++ [.node k f], ts, errs⟩ := by
  simp [Sink.run, Sink.step, Sink.close]
  congr 1
  exact Sink.eatTrivia_settled (s := ⟨ps, c ++ [.node k f], ts, errs⟩) h

theorem body_run {k : SynKind} {inner : List Event} {ss : List (List Event)} {g : Green} {n : Nat}
    (h : ChainTree k inner ss g n) (tail : List Event) (m : Nat) (ps : List (SynKind × Nat)) (c : List Green) (ts : List Tok)
    (er : List ParseErr) (u : List Leaf) (hs : Settled ts) (hu : (sig ts).map Tok.key = leavesOf [g] ++ u) :
    ∃ (f' : List Green) (ts' : List Tok) (errs : List ParseErr),
      Sink.run ((body inner ss).length + m) (body inner ss ++ tail)
          ⟨(k, c.length) :: (List.replicate ss.length (.infixExpr, c.length) ++ ps), c, ts, er⟩
        = Sink.run m tail ⟨ps, c ++ f', ts', er ++ errs⟩ ∧
      errs.length = n ∧ Decor [g] f' ∧ ts.map Tok.key = leavesOf f' ++ ts'.map Tok.key ∧ Settled ts' ∧
      (sig ts').map Tok.key = u := by
  induction h generalizing tail m ps u with
  | base f n h =>
    rw [leavesOf_node] at hu
    obtain ⟨f', ts', errs, h1, h2, h3, h4, h5, h6⟩ := h (.finishNode :: tail) (m + 1)
      ⟨(k, c.length) :: ps, c, ts, er⟩ u hs hu
    refine ⟨[.node k f'], ts', errs, ?_, h2, .node k f f' h3 [] [] .nil, ?_, h5, h6⟩
    · show Sink.run ((inner ++ [Event.finishNode]).length + m) _ _ = _
      have e : (inner ++ [Event.finishNode]).length + m = inner.length + (m + 1) := by simp; omega
      have e' : body inner [] ++ tail = inner ++ .finishNode :: tail := by simp [body]
      rw [e, e']
      simp only [List.length_nil, List.replicate_zero, List.nil_append]
      rw [h1, run_finish m tail k ps c f' ts' _ h5]
    · rw [leavesOf_node]; exact h4
  | snoc ss g n hg t s f k' hb ih =>
    have hl : leavesOf [.node .infixExpr (g :: leaf t :: f)] = leavesOf [g] ++ (leavesOf [leaf t] ++ leavesOf f) := by
      rw [leavesOf_node, ← leavesOf_append, ← leavesOf_append]; rfl
    rw [hl, List.append_assoc] at hu
    obtain ⟨g', ts1, e1, a1, a2, a3, a4, a5, a6⟩ :=
      ih (.addToken :: .placeholder :: (s ++ .finishNode :: tail)) (1 + (1 + (s.length + (m + 1)))) ((.infixExpr, c.length) :: ps) _ hu
    have a6' : (sig ts1).map Tok.key = leavesOf [leaf t] ++ (leavesOf f ++ u) := by rw [a6, List.append_assoc]
    obtain ⟨w, ts2, e2, b1, b2, b3, b4, b5, b6⟩ := blk_token t (.placeholder :: (s ++ .finishNode :: tail))
      (1 + (s.length + (m + 1))) ⟨(.infixExpr, c.length) :: ps, c ++ g', ts1, er ++ e1⟩ _ a5 a6'
    obtain ⟨f', ts3, e3, d1, d2, d3, d4, d5, d6⟩ := hb (.finishNode :: tail) (m + 1)
      ⟨(.infixExpr, c.length) :: ps, c ++ g' ++ w, ts2, er ++ e1 ++ e2⟩ _ b5 b6
    have hd : Decor (g :: leaf t :: f) (g' ++ w ++ f') := by
      have := (a3.append b3).append d3
      simpa using this
    refine ⟨[.node .infixExpr (g' ++ w ++ f')], ts3, e1 ++ e2 ++ e3, ?_, ?_, .node _ _ _ hd [] [] .nil, ?_, d5, d6⟩
    · have e : (body inner (ss ++ [s])).length + m = (body inner ss).length + (1 + (1 + (s.length + (m + 1)))) := by
        rw [body_snoc]; simp; omega
      have e' : body inner (ss ++ [s]) ++ tail = body inner ss ++ (.addToken :: .placeholder :: (s ++ .finishNode :: tail)) := by
        rw [body_snoc]; simp
      have ep : List.replicate (ss ++ [s]).length (SynKind.infixExpr, c.length) ++ ps
          = List.replicate ss.length (SynKind.infixExpr, c.length) ++ ((.infixExpr, c.length) :: ps) := by
        rw [List.length_append, List.length_singleton, List.replicate_succ']
        simp
      rw [e, e', ep, a1]
      have b1' := b1
      simp only [List.length_singleton, List.singleton_append] at b1'
      rw [b1']
      have hp : Sink.run (1 + (s.length + (m + 1))) (.placeholder :: (s ++ .finishNode :: tail))
          ⟨(.infixExpr, c.length) :: ps, c ++ g' ++ w, ts2, er ++ e1 ++ e2⟩
          = Sink.run (s.length + (m + 1)) (s ++ .finishNode :: tail)
          ⟨(.infixExpr, c.length) :: ps, c ++ g' ++ w, ts2, er ++ e1 ++ e2⟩ := by
        rw [Nat.add_comm 1]
        simp only [Sink.run, Sink.step, Outcome.bind_ok]
        congr 1
        exact Sink.eatTrivia_settled (s := ⟨(.infixExpr, c.length) :: ps, c ++ g' ++ w, ts2, er ++ e1 ++ e2⟩) b5
      rw [hp, d1]
      have e5 : c ++ g' ++ w ++ f' = c ++ (g' ++ w ++ f') := by simp
      simp only
      rw [e5, run_finish m tail .infixExpr ps c _ ts3 _ d5]
      simp
    · simp only [List.length_append, a2, b2, d2, Nat.add_zero]
    · rw [leavesOf_node, leavesOf_append, leavesOf_append, a4]
      simp only at b4 d4
      rw [b4, d4]
      simp

theorem open_replicate (m : Nat) (k : SynKind) (s : Sink) :
    s.open_ (List.replicate m .infixExpr ++ [k])
      = ⟨(k, s.children.length) :: (List.replicate m (.infixExpr, s.children.length) ++ s.parents), s.children, s.toks, s.errors⟩ := by
  induction m generalizing s with
  | zero => rfl
  | succ m ih =>
    rw [List.replicate_succ, List.cons_append]
    show Sink.open_ { s with parents := (.infixExpr, s.children.length) :: s.parents } _ = _
    rw [ih]
    simp only [Sink.mk.injEq, List.cons.injEq, true_and, and_true]
    rw [List.replicate_succ', List.append_assoc]
    rfl

theorem blk_chain {k : SynKind} {inner : List Event} {ss : List (List Event)} {g : Green} {n : Nat}
    (h : ChainTree k inner ss g n) : Blk (chain k inner ss) [g] n := by
  intro tail m s u hs hu
  obtain ⟨fp, rest, h1, h2, h3⟩ := chain_eq k inner ss
  have hn : ss.length ≤ (rest ++ tail).length := by
    have : ss.length ≤ (body inner ss).length := by
      clear hu h1 h2 h3 h
      induction ss generalizing inner with
      | nil => simp
      | cons x ss ih =>
        have := ih (inner := x)
        simp [body]
        omega
    rw [List.length_append]; omega
  have hw := h3 [] tail (rest ++ tail).length hn
  simp only [List.length_nil, List.nil_append] at hw
  obtain ⟨f', ts', errs, b1, b2⟩ := body_run h tail m s.parents s.children s.toks s.errors u hs hu
  refine ⟨f', ts', errs, ?_, b2⟩
  rw [← b1, h1]
  have e : (Event.startNode k fp :: rest).length + m = ((body inner ss).length + m) + 1 := by
    simp [h2]; omega
  rw [e, List.cons_append]
  simp only [Sink.run, Sink.step, hw, Outcome.bind_ok, Outcome.pure_eq, List.reverse_cons, List.reverse_replicate, open_replicate]
  congr 1
  exact Sink.eatTrivia_settled (s := ⟨_, s.children, s.toks, s.errors⟩) hs

theorem blk_node {inner : List Event} {f : List Green} {n : Nat} (k : SynKind) (h : Blk inner f n) :
    Blk (.startNode k none :: (inner ++ [.finishNode])) [.node k f] n :=
  blk_chain (.base f n h)

end Script
end Verif
