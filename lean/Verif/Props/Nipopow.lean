import Verif.Proofs.ProveMain
import Verif.Proofs.Score
import Verif.Props.Interlinks

/-!
# C32, C56, C60: comparison of proofs, the verifier, and the prover
-/

set_option linter.unusedSimpArgs false
set_option linter.unusedVariables false

namespace Verif
open Merkle Spec

section
variable {G : Type}

/-! ## C60 -/

/-- C60: for `m ≥ 1` and headers without negative levels the score is the best of `2^μ * |C↑μ|` over level 0 and the levels with
`m` headers or more (as long as these numbers fit 64 bits); there is only one such number. -/
theorem C60_best_partial (mode : Mode) (W : Pow) (lv : Header G → Nat) (c : List (Header G)) (m : Nat) (hm : 1 ≤ m) (hl : Levels W lv c)
    (ho : ∀ μ, μ = 0 ∨ m ≤ atLeast (c.map lv) μ → 2 ^ μ * atLeast (c.map lv) μ < 2 ^ 64) :
    ∃ x, bestArg mode W c m = .ok x ∧ BestScore (c.map lv) m x ∧ ∀ y, BestScore (c.map lv) m y → y = x := by
  obtain ⟨x, h1, h2⟩ := bestArg_spec mode W lv c m hm hl ho
  exact ⟨x, h1, h2, fun y hy => bestScore_unique hy h2⟩

/-- C60: a longer chain never has a lower score. -/
theorem C60_monotone (mode : Mode) (W : Pow) (lv : Header G → Nat) (c d : List (Header G)) (m : Nat) (hm : 1 ≤ m) (hl : Levels W lv (c ++ d))
    (ho : ∀ μ, μ = 0 ∨ m ≤ atLeast ((c ++ d).map lv) μ → 2 ^ μ * atLeast ((c ++ d).map lv) μ < 2 ^ 64) :
    ∃ x y, bestArg mode W c m = .ok x ∧ bestArg mode W (c ++ d) m = .ok y ∧ x ≤ y := by
  have hle : ∀ μ, atLeast (c.map lv) μ ≤ atLeast ((c ++ d).map lv) μ := by
    intro μ
    unfold atLeast
    rw [List.map_append, List.countP_append]
    omega
  obtain ⟨y, h3, h4⟩ := bestArg_spec mode W lv (c ++ d) m hm hl ho
  obtain ⟨x, h1, h2⟩ := bestArg_spec mode W lv c m hm (fun h hh => hl h (by simp [hh])) (fun μ hμ => by
    refine Nat.lt_of_le_of_lt (Nat.mul_le_mul_left _ (hle μ)) (ho μ ?_)
    rcases hμ with h | h
    · exact .inl h
    · exact .inr (Nat.le_trans h (hle μ)))
  refine ⟨x, y, h1, h3, ?_⟩
  obtain ⟨μ, hμ, rfl⟩ := h2.reached
  refine Nat.le_trans (Nat.mul_le_mul_left _ (hle μ)) (h4.bound μ ?_)
  rcases hμ with h | h
  · exact .inl h
  · exact .inr (Nat.le_trans h (hle μ))

/-- C60, violation: with `m = 0` (which a parsed proof may have) the computation never ends: the level runs through all of `u32`
(a panic with overflow checks, an endless loop without). -/
theorem C60_violation_m_zero (mode : Mode) (W : Pow) (c : List (Header G)) (ls : List (BitVec 32)) (h : levelsOf W c = .ok ls) :
    bestArg mode W c 0 = .panic := by
  have key : ∀ m, m ≤ countAt ls (2 ^ 32 - 1) → bestArg mode W c m = .panic := by
    intro m hm
    unfold bestArg
    rw [h]
    show (bestArgLoop ls m 1 >>= _) = _
    rw [bestArgLoop_never ls m 1 hm (by decide)]
    rfl
  exact key 0 (Nat.zero_le _)

/-- C60, violation: a header of negative level counts as one of a level above `2^31`; with `m = 1` the score then overflows (a
panic with overflow checks). -/
theorem C60_violation_negative (W : Pow) (c : List (Header G)) (ls : List (BitVec 32)) (h : levelsOf W c = .ok ls)
    (hn : ∃ l ∈ ls, l.toInt < 0) : bestArg .debug W c 1 = .panic := by
  unfold bestArg
  rw [h]
  obtain ⟨l, hl, hneg⟩ := hn
  have hbig : 2 ^ 31 ≤ l.toNat := by
    have := BitVec.toInt_eq_toNat_cond l
    have := l.isLt
    split at * <;> omega
  have hc : 1 ≤ countAt ls 64 := by
    unfold countAt
    exact List.length_pos_of_mem (List.mem_filter.2 ⟨hl, by simp; omega⟩)
  cases hb : bestArgLoop ls 1 1 with
  | err => exact absurd hb (bestArgLoop_no_err _ _ _)
  | panic =>
    show (bestArgLoop ls 1 1 >>= _) = _
    rw [hb]; rfl
  | ok r =>
    show (bestArgLoop ls 1 1 >>= _) = _
    rw [hb]
    obtain ⟨j, h1, h2, h3⟩ := bestArgLoop_ok ls 1 1 r hb
    have hj : 63 < j := by
      by_contra hh
      have := countAt_anti ls (show 1 + j ≤ 64 by omega)
      omega
    show (scores .debug ((0, c.length) :: r) >>= _) = _
    rw [scores_panic]
    · rfl
    · refine ⟨(64, countAt ls 64), List.mem_cons_of_mem _ ?_, Nat.le_refl _⟩
      rw [h1, List.mem_map]
      exact ⟨63, by simpa using hj, rfl⟩

/-- Levels 1, 0, 3, 1: with `m = 2` level 1 wins (3 headers), with `m = 1` level 3 (1 header). -/
example : let c := [toyHeader 2 1 1 2, toyHeader 3 0 2 3, toyHeader 4 3 3 4, toyHeader 5 1 4 5]
    levelsOf toyPow c = .ok [1, 0, 3, 1] ∧ bestArg .debug toyPow c 2 = .ok 6 ∧ bestArg .debug toyPow c 1 = .ok 8 ∧
      bestArg .debug toyPow c 5 = .ok 4 ∧ levelsOf toyPow [{ toyHeader 4 0 3 4 with nBits := 0x01080000#64 }] = .ok [-2] := by
  decide +kernel

/-! ## C32 -/

variable [DecidableEq G]

/-- The verifier after a sequence of proofs. -/
def processAll (mode : Mode) (W : Pow) (v : NipopowVerifier G) : List (NipopowProof G) → Outcome (NipopowVerifier G)
  | [] => .ok v
  | p :: ps => v.process mode W p >>= fun v' => processAll mode W v' ps

/-- A proof that starts at the given block. -/
def Anchored (genesis : Bytes) (p : NipopowProof G) : Prop := ∃ h, p.chain.head? = some h ∧ h.id = genesis

omit [DecidableEq G] in
theorem chain_cons (p : NipopowProof G) : ∃ h t, p.chain = h :: t := by
  unfold NipopowProof.chain
  cases p.pre with
  | nil => exact ⟨_, _, rfl⟩
  | cons a l => exact ⟨_, _, rfl⟩

/-- C32: what one step does.  The state changes only to the processed proof, only if that starts at genesis, and only if there
was none before or the new one is better. -/
theorem C32_step (mode : Mode) (W : Pow) (v v' : NipopowVerifier G) (p : NipopowProof G) (h : v.process mode W p = .ok v') :
    v'.genesis = v.genesis ∧ (v' = v ∨ (v'.best = some p ∧ Anchored v.genesis p ∧
      (v.best = none ∨ ∃ q, v.best = some q ∧ p.isBetter mode W q = .ok true))) := by
  obtain ⟨hd, t, hch⟩ := chain_cons p
  unfold NipopowVerifier.process at h
  rw [hch] at h
  dsimp only at h
  split at h
  · next hg =>
    have ha : Anchored v.genesis p := ⟨hd, by rw [hch]; rfl, hg⟩
    cases hb : v.best with
    | none =>
      rw [hb] at h
      obtain rfl : _ = v' := by injection h
      exact ⟨rfl, .inr ⟨rfl, ha, .inl rfl⟩⟩
    | some q =>
      rw [hb] at h
      dsimp only at h
      obtain ⟨b, h1, h2⟩ := Outcome.bind_eq_ok.1 h
      cases b with
      | true =>
        obtain rfl : _ = v' := by injection h2
        exact ⟨rfl, .inr ⟨rfl, ha, .inr ⟨q, rfl, h1⟩⟩⟩
      | false =>
        obtain rfl : _ = v' := by injection h2
        exact ⟨rfl, .inl rfl⟩
  · obtain rfl : _ = v' := by injection h
    exact ⟨rfl, .inl rfl⟩

/-- C32: after any sequence of proofs the stored proof is one of them and starts at the configured genesis block. -/
theorem C32_anchored (mode : Mode) (W : Pow) (genesis : Bytes) (ps : List (NipopowProof G)) (v : NipopowVerifier G)
    (h : processAll mode W (.new genesis) ps = .ok v) :
    v.genesis = genesis ∧ ∀ p, v.best = some p → p ∈ ps ∧ Anchored genesis p := by
  have key : ∀ (ps : List (NipopowProof G)) (v0 v : NipopowVerifier G) (S : List (NipopowProof G)), v0.genesis = genesis →
      (∀ p, v0.best = some p → p ∈ S ∧ Anchored genesis p) → processAll mode W v0 ps = .ok v →
      v.genesis = genesis ∧ ∀ p, v.best = some p → p ∈ S ++ ps ∧ Anchored genesis p := by
    intro ps
    induction ps with
    | nil =>
      intro v0 v S hg hi h
      obtain rfl : v0 = v := by injection h
      simpa using ⟨hg, hi⟩
    | cons q ps ih =>
      intro v0 v S hg hi h
      obtain ⟨v1, h1, h2⟩ := Outcome.bind_eq_ok.1 h
      obtain ⟨e1, e2⟩ := C32_step mode W v0 v1 q h1
      have := ih v1 v (S ++ [q]) (by rw [e1, hg]) ?_ h2
      · simpa using this
      · intro p hp
        rcases e2 with rfl | ⟨e3, e4, _⟩
        · have := hi p hp
          exact ⟨by simp [this.1], this.2⟩
        · rw [e3] at hp
          obtain rfl := Option.some.inj hp
          exact ⟨by simp, hg ▸ e4⟩
  simpa using key ps (.new genesis) v [] rfl (by intro p hp; cases hp) h

/-- C32: what valid means: neighbours in the prefix and the head of the suffix are linked by an interlink or as parent and child, the
suffix is a chain of parents and children, heights rise, and every interlink proof passes its check. -/
theorem C32_valid_means (mode : Mode) (H : HashFn) (p : NipopowProof G) :
    p.isValid mode H = .ok true ↔
      ((p.pre ++ [p.suffixHead]).IsChain fun a b => a.header.id ∈ b.interlinks ∨ b.header.parentId = a.header.id) ∧
      ((p.suffixHead.header :: p.suffixTail).IsChain fun a b => b.parentId = a.id) ∧ Rising p.chain ∧
      ∀ x, x ∈ p.pre ∨ x = p.suffixHead → x.checkInterlinks mode H = .ok true := by
  have hall : ∀ l : List (PoPowHeader G), NipopowProof.allOk mode H l = .ok true ↔ ∀ x ∈ l, x.checkInterlinks mode H = .ok true := by
    intro l
    induction l with
    | nil => simp [NipopowProof.allOk]
    | cons a l ih =>
      rw [NipopowProof.allOk, Outcome.bind_eq_ok]
      constructor
      · rintro ⟨b, h1, h2⟩
        cases b with
        | false => cases h2
        | true =>
          intro x hx
          rcases List.mem_cons.1 hx with rfl | hx
          · exact h1
          · exact ih.1 h2 x hx
      · intro h
        exact ⟨true, h a (by simp), ih.2 fun x hx => h x (by simp [hx])⟩
  have hc := connections_iff p
  have hh := heights_iff p
  rw [show (fun a b : PoPowHeader G => a.header.id ∈ b.interlinks ∨ b.header.parentId = a.header.id) = Linked from rfl, ← and_assoc, ← hc,
    ← hh]
  have hm : (∀ x, x ∈ p.pre ∨ x = p.suffixHead → x.checkInterlinks mode H = .ok true) ↔ p.proofs mode H = .ok true := by
    unfold NipopowProof.proofs
    rw [hall]
    exact ⟨fun h x hx => h x ((List.mem_cons.1 hx).elim .inr .inl), fun h x hx => h x (List.mem_cons.2 hx.symm)⟩
  rw [hm]
  unfold NipopowProof.isValid
  cases p.connections <;> cases p.heights <;> simp

/-- Only a valid proof is better than another. -/
theorem better_valid (mode : Mode) (W : Pow) (p q : NipopowProof G) (h : p.isBetter mode W q = .ok true) : p.isValid mode W.H = .ok true := by
  unfold NipopowProof.isBetter at h
  obtain ⟨a, h1, h2⟩ := Outcome.bind_eq_ok.1 h
  cases a with
  | true => exact h1
  | false => cases h2

/-- C32: a valid stored proof stays or is replaced by a valid one. -/
theorem C32_valid_kept (mode : Mode) (W : Pow) (v v' : NipopowVerifier G) (p q : NipopowProof G) (hq : v.best = some q)
    (hv : q.isValid mode W.H = .ok true) (h : v.process mode W p = .ok v') :
    ∃ q', v'.best = some q' ∧ q'.isValid mode W.H = .ok true := by
  obtain ⟨_, h2⟩ := C32_step mode W v v' p h
  rcases h2 with rfl | ⟨h3, _, h4⟩
  · exact ⟨q, hq, hv⟩
  · refine ⟨p, h3, ?_⟩
    rcases h4 with h4 | ⟨q', h5, h6⟩
    · rw [hq] at h4; cases h4
    · exact better_valid mode W p q' h6

/-- C32: once a valid proof from genesis has been processed, the stored proof is valid, whatever came before and comes after.
(The statement for all histories fails: `C32_violation_first`.) -/
theorem C32_valid_partial (mode : Mode) (W : Pow) (genesis : Bytes) (ps : List (NipopowProof G)) (v : NipopowVerifier G)
    (h : processAll mode W (.new genesis) ps = .ok v)
    (hx : ∃ p ∈ ps, Anchored genesis p ∧ p.isValid mode W.H = .ok true) :
    ∃ q, v.best = some q ∧ q.isValid mode W.H = .ok true := by
  have keep : ∀ (ps : List (NipopowProof G)) (v0 v : NipopowVerifier G), (∃ q, v0.best = some q ∧ q.isValid mode W.H = .ok true) →
      processAll mode W v0 ps = .ok v → ∃ q, v.best = some q ∧ q.isValid mode W.H = .ok true := by
    intro ps
    induction ps with
    | nil =>
      intro v0 v hq h
      obtain rfl : v0 = v := by injection h
      exact hq
    | cons q ps ih =>
      rintro v0 v ⟨q0, hq0, hv0⟩ h
      obtain ⟨v1, h1, h2⟩ := Outcome.bind_eq_ok.1 h
      exact ih v1 v (C32_valid_kept mode W v0 v1 q q0 hq0 hv0 h1) h2
  have key : ∀ (ps : List (NipopowProof G)) (v0 v : NipopowVerifier G), v0.genesis = genesis →
      (∃ p ∈ ps, Anchored genesis p ∧ p.isValid mode W.H = .ok true) → processAll mode W v0 ps = .ok v →
      ∃ q, v.best = some q ∧ q.isValid mode W.H = .ok true := by
    intro ps
    induction ps with
    | nil => rintro v0 v _ ⟨p, hp, _⟩; simp at hp
    | cons q ps ih =>
      rintro v0 v hg ⟨p, hp, ha, hv⟩ h
      obtain ⟨v1, h1, h2⟩ := Outcome.bind_eq_ok.1 h
      have hg1 := (C32_step mode W v0 v1 q h1).1
      rcases List.mem_cons.1 hp with rfl | hp
      · refine keep ps v1 v ?_ h2
        obtain ⟨hd, t, hch⟩ := chain_cons p
        obtain ⟨x, hx1, hx2⟩ := ha
        rw [hch] at hx1
        obtain rfl : hd = x := Option.some.inj hx1
        have h1' := h1
        unfold NipopowVerifier.process at h1
        rw [hch] at h1
        dsimp only at h1
        rw [if_pos (by rw [hx2, hg])] at h1
        cases hb : v0.best with
        | none =>
          rw [hb] at h1
          obtain rfl : _ = v1 := by injection h1
          exact ⟨p, rfl, hv⟩
        | some q =>
          rw [hb] at h1
          dsimp only at h1
          obtain ⟨b, e1, e2⟩ := Outcome.bind_eq_ok.1 h1
          cases b with
          | true =>
            obtain rfl : _ = v1 := by injection e2
            exact ⟨p, rfl, hv⟩
          | false =>
            obtain rfl : _ = v1 := by injection e2
            refine ⟨q, hb, ?_⟩
            -- had it been invalid, the new one would be better
            unfold NipopowProof.isBetter at e1
            rw [hv] at e1
            obtain ⟨c, c1, c2⟩ := Outcome.bind_eq_ok.1 (show (q.isValid mode W.H >>= _) = _ from e1)
            cases c with
            | true => exact c1
            | false => cases (show Outcome.ok true = Outcome.ok false from c2)
      · exact ih v1 v (by rw [hg1, hg]) ⟨p, hp, ha, hv⟩ h2
  exact key ps (.new genesis) v rfl hx h

/-- C32, violation: the first proof that starts at the genesis id is stored without any check. -/
theorem C32_violation_first (mode : Mode) (W : Pow) (genesis : Bytes) (p : NipopowProof G) (ha : Anchored genesis p) :
    (NipopowVerifier.new genesis).process mode W p = .ok { best := some p, genesis := genesis } := by
  obtain ⟨hd, t, hch⟩ := chain_cons p
  obtain ⟨x, hx1, hx2⟩ := ha
  rw [hch] at hx1
  obtain rfl : hd = x := Option.some.inj hx1
  unfold NipopowVerifier.process
  rw [hch]
  show (if hd.id = genesis then _ else _) = _
  rw [if_pos hx2]
  rfl

omit [DecidableEq G] in
theorem valid_rising (mode : Mode) (H : HashFn) (p : NipopowProof G) (h : p.isValid mode H = .ok true) : Rising p.chain := by
  unfold NipopowProof.isValid at h
  split at h
  · next hh =>
    rw [Bool.and_eq_true] at hh
    exact (heights_iff p).1 hh.2
  · cases h

/-- C32: of two proofs with the same `m`, at most one is better than the other. -/
theorem C32_asymmetric_partial (mode : Mode) (W : Pow) (p q : NipopowProof G) (hm : p.m = q.m) (h : p.isBetter mode W q = .ok true) :
    q.isBetter mode W p = .ok false := by
  have hp := better_valid mode W p q h
  unfold NipopowProof.isBetter at h ⊢
  rw [hp] at h
  obtain ⟨b, h1, h2⟩ := Outcome.bind_eq_ok.1 (show (q.isValid mode W.H >>= _) = _ from h)
  rw [h1]
  cases b with
  | false => rfl
  | true =>
    show (p.isValid mode W.H >>= _) = _
    rw [hp]
    show (match lca q.chain p.chain with
      | some l => bestArg mode W (q.above l.height) q.m.toNat >>= fun x => bestArg mode W (p.above l.height) q.m.toNat >>= fun y => pure (decide (y < x))
      | none => pure false) = Outcome.ok false
    change (match lca p.chain q.chain with
      | some l => bestArg mode W (p.above l.height) p.m.toNat >>= fun x => bestArg mode W (q.above l.height) p.m.toNat >>= fun y => pure (decide (y < x))
      | none => pure false) = Outcome.ok true at h2
    have hheads : lca p.chain q.chain ≠ none → p.chain.head? = q.chain.head? := by
      obtain ⟨a, s, ha⟩ := chain_cons p
      obtain ⟨b, t, hb⟩ := chain_cons q
      rw [ha, hb]
      intro hl
      by_contra hne
      exact hl (C33_other_genesis a b s t (by simpa using hne))
    cases hl : lca p.chain q.chain with
    | none => rw [hl] at h2; cases h2
    | some l =>
      rw [← C33_symm p.chain q.chain (valid_rising mode W.H p hp) (valid_rising mode W.H q h1) (hheads (by simp [hl])), hl]
      rw [hl] at h2
      dsimp only at h2 ⊢
      obtain ⟨x, e1, h2⟩ := Outcome.bind_eq_ok.1 h2
      obtain ⟨y, e2, h2⟩ := Outcome.bind_eq_ok.1 h2
      have hlt : decide (y < x) = true := by injection h2
      rw [← hm, e2]
      show (bestArg mode W (p.above l.height) p.m.toNat >>= _) = _
      rw [e1]
      show Outcome.ok (decide (x < y)) = _
      have : ¬ x < y := by have := of_decide_eq_true hlt; omega
      rw [decide_eq_false this]

end

/-- A proof that is a whole chain, without interlinks. -/
def toyProof (m : BitVec 32) (g : Header (Fin 3)) (rest : List (Header (Fin 3))) : NipopowProof (Fin 3) :=
  { m := m, k := 1, pre := [], suffixHead := { header := g, interlinks := [], proof := { indices := [], proofs := [] } }, suffixTail := rest }

/-- Headers with consecutive heights from `height` on and the given levels, each the parent of the next; tags as ids. -/
def toyHeaders (height parent tag : Nat) : List Nat → List (Header (Fin 3))
  | [] => []
  | l :: ls => toyHeader height l parent tag :: toyHeaders (height + 1) tag (tag + 1) ls

/-- One header of level 5 behind genesis, `m = 1`; three headers of level 2, `m = 3`. -/
def oddA : NipopowProof (Fin 3) := toyProof 1 (toyHeader 1 0 0 1) (toyHeaders 2 1 10 [5])
def oddB : NipopowProof (Fin 3) := toyProof 3 (toyHeader 1 0 0 1) (toyHeaders 2 1 20 [2, 2, 2])

/-- C32, violation: proofs with different `m` can each be better than the other, so a verifier that is given them in turn never
settles. -/
theorem C32_violation_different_m : oddA.isBetter .debug toyPow oddB = .ok true ∧ oddB.isBetter .debug toyPow oddA = .ok true := by
  decide +kernel

/-- Three branches, all with `m = 1`: seven headers of level 0 behind genesis; five of level 0 and one of level 2; the same five
and three of level 0. -/
def cycA : NipopowProof (Fin 3) := toyProof 1 (toyHeader 1 0 0 1) (toyHeaders 2 1 10 [0, 0, 0, 0, 0, 0, 0])
def cycB : NipopowProof (Fin 3) := toyProof 1 (toyHeader 1 0 0 1) (toyHeaders 2 1 20 [0, 0, 0, 0, 0] ++ toyHeaders 7 24 30 [2])
def cycC : NipopowProof (Fin 3) := toyProof 1 (toyHeader 1 0 0 1) (toyHeaders 2 1 20 [0, 0, 0, 0, 0] ++ toyHeaders 7 24 40 [0, 0, 0])

/-- C32, violation: "better than" has cycles even among valid proofs with one `m` from one genesis block, so the stored proof
depends on the order of arrival, and need not be one that no processed proof is better than. -/
theorem C32_violation_cycle : cycA.isBetter .debug toyPow cycB = .ok true ∧ cycB.isBetter .debug toyPow cycC = .ok true ∧
    cycC.isBetter .debug toyPow cycA = .ok true ∧
    (∀ p ∈ [cycA, cycB, cycC], p.m = 1 ∧ p.isValid .debug sumHash = .ok true) := by
  decide +kernel

/-- The cycle as seen by a verifier: fed A, C, B, A it stores A, C, B and A again. -/
example : (match processAll .debug toyPow (.new (natBe 32 1)) [cycA, cycC, cycB] with
    | .ok v => v.best == some cycB
    | _ => false) = true ∧
    (match processAll .debug toyPow (.new (natBe 32 1)) [cycA, cycC, cycB, cycA] with
    | .ok v => v.best == some cycA
    | _ => false) = true := by
  decide +kernel

/-- An invalid proof (the second header does not name its parent) that starts at genesis and is stored. -/
example : Anchored (natBe 32 1) (toyProof 1 (toyHeader 1 0 0 1) [toyHeader 2 0 99 7]) ∧
    (toyProof 1 (toyHeader 1 0 0 1) [toyHeader 2 0 99 7]).isValid .debug sumHash = .ok false ∧
    (match processAll .debug toyPow (.new (natBe 32 1)) [toyProof 1 (toyHeader 1 0 0 1) [toyHeader 2 0 99 7], cycB] with
      | .ok v => v.best == some cycB
      | _ => false) = true :=
  ⟨⟨_, rfl, rfl⟩, by decide +kernel, by decide +kernel⟩

/-! ## C56 -/

section
variable {G : Type} [DecidableEq G] {mode : Mode} {W : Pow} {lv : PoPowHeader G → Nat} {c : List (PoPowHeader G)}

/-- C56: from the chain of a full node `prove` makes a valid proof.  It starts at the first block, ends with the last `k` blocks,
has no other blocks than those of the chain, in order, and has the last `m` blocks of every level of the part in front of the last
`k` blocks.  (Missing: `m = 0` and suffixes that leave one block, where it panics, see below.) -/
theorem C56_prove_partial (hc : FullChain mode W lv c) (k m : BitVec 32) (hk : 1 ≤ k.toNat) (hm : 1 ≤ m.toNat)
    (hs : k.toNat + m.toNat < 2 ^ 32) (hlen : k.toNat + m.toNat ≤ c.length) (h2 : k.toNat + 2 ≤ c.length)
    (front : List (PoPowHeader G)) (hfr : front = c.take (c.length - k.toNat)) :
    ∃ p, prove mode W c k m = .ok p ∧ p.m = m ∧ p.k = k ∧ p.isValid mode W.H = .ok true ∧
      p.chain.head? = c.head?.map PoPowHeader.header ∧
      p.suffixHead.header :: p.suffixTail = (c.drop (c.length - k.toNat)).map PoPowHeader.header ∧
      (∀ x ∈ p.pre, x ∈ front) ∧ p.pre.Pairwise (fun a b => a.header.height.toNat < b.header.height.toNat) ∧
      ∀ μ, let S := front.filter (fun x => decide (μ ≤ lv x)); ∀ x ∈ S.drop (S.length - m.toNat), x ∈ p.pre := by
  subst hfr
  obtain ⟨g, sh, last, st, P, anc, e1, e2, e3, e4, e5, e6⟩ := prove_run hc k m hk hm hs hlen h2
  have hL : c.length - k.toNat < c.length := by omega
  have hPc : ∀ x ∈ P, x ∈ c := fun x hx => List.mem_of_mem_take (mem_prefix e5 hx)
  have hsorted := sorted_heights P e4 (fun p hp q hq h => hc.inj (hPc p hp) (hPc q hq) h)
  obtain ⟨_, hi2, hi3⟩ := hc.interlinks e1 (c.length - k.toNat - 1) (by omega) last e2
  have hgP : g ∈ P := first_mem hc e1 (by omega) e5 hi2
  have hgh := hc.heights 0 g e1
  have hFs : (c.take (c.length - k.toNat)).Pairwise fun a b => a.header.height.toNat < b.header.height.toNat := by
    rw [List.pairwise_iff_getElem]
    intro i j hi hj hij
    simp only [List.length_take] at hi hj
    rw [List.getElem_take, List.getElem_take]
    have := hc.heights i _ (List.getElem?_eq_getElem (by omega))
    have := hc.heights j _ (List.getElem?_eq_getElem (by omega))
    omega
  refine ⟨_, e6, rfl, rfl, prove_valid hc e1 hL (by omega) e3 e4 e5 m k, ?_, by rw [e3]; rfl,
    fun x hx => mem_prefix e5 (List.mem_mergeSort.1 hx), hsorted, ?_⟩
  · -- the first block comes first
    show ((P.mergeSort heightLe).map PoPowHeader.header ++ sh.header :: _).head? = _
    have hg' : g ∈ P.mergeSort heightLe := List.mem_mergeSort.2 hgP
    cases hM : P.mergeSort heightLe with
    | nil => rw [hM] at hg'; simp at hg'
    | cons a l =>
      have ha : a = g := by
        rw [hM] at hg' hsorted
        rcases List.mem_cons.1 hg' with h | h
        · exact h.symm
        · have h1 := (List.pairwise_cons.1 hsorted).1 g h
          obtain ⟨i, _, h2⟩ := hc.index (hPc a (List.mem_mergeSort.1 (by rw [hM]; simp)))
          omega
      have hc0 : c.head? = some g := by rw [List.head?_eq_getElem?]; exact e1
      rw [hc0, ha]
      rfl
  · intro μ
    dsimp only
    intro x hx
    refine List.mem_mergeSort.2 ?_
    have hxF := List.mem_filter.1 (List.mem_of_mem_drop hx)
    have hxl : μ ≤ lv x := by simpa using hxF.2
    by_cases hμ : μ < last.interlinks.length
    · refine (e5.mem x).2 ⟨μ, hμ, mem_subOf.2 ⟨hxF.1, hxl, ?_⟩⟩
      have hcnt := rounds_count hFs (by omega) e5 (last.interlinks.length - 1 - μ) (by omega)
      rw [show last.interlinks.length - 1 - (last.interlinks.length - 1 - μ) = μ from by omega] at hcnt
      generalize (anc μ).header.height.toNat = t at *
      obtain ⟨jx, _, hxh⟩ := hc.index (List.mem_of_mem_take hxF.1)
      rcases hcnt with h | h
      · omega
      · by_contra hlt
        generalize hS : (c.take (c.length - k.toNat)).filter (fun x => decide (μ ≤ lv x)) = S at *
        have hSs : S.Pairwise fun a b => a.header.height.toNat < b.header.height.toNat := by
          rw [← hS]; exact List.Pairwise.filter _ hFs
        obtain ⟨j, hj, hjx⟩ := List.mem_iff_getElem.1 hx
        rw [List.length_drop] at hj
        rw [List.getElem_drop] at hjx
        have hsub : subOf lv μ t (c.take (c.length - k.toNat)) = S.filter fun p => decide (t ≤ p.header.height.toNat) := by
          unfold subOf
          rw [← hS, List.filter_filter]
          congr 1
          funext p
          rw [Bool.decide_and, Bool.and_comm]
        rw [hsub] at h
        have hsplit : S.filter (fun p => decide (t ≤ p.header.height.toNat)) =
            (S.drop (S.length - m.toNat + j + 1)).filter fun p => decide (t ≤ p.header.height.toNat) := by
          conv => lhs; rw [← List.take_append_drop (S.length - m.toNat + j + 1) S]
          rw [List.filter_append]
          have : (S.take (S.length - m.toNat + j + 1)).filter (fun p => decide (t ≤ p.header.height.toNat)) = [] := by
            rw [List.filter_eq_nil_iff]
            intro a ha
            obtain ⟨i, hi, rfl⟩ := List.mem_iff_getElem.1 ha
            rw [List.length_take] at hi
            rw [List.getElem_take]
            simp only [decide_eq_true_eq]
            rcases Nat.lt_or_ge i (S.length - m.toNat + j) with h3 | h3
            · have := List.pairwise_iff_getElem.1 hSs i (S.length - m.toNat + j) (by omega) (by omega) h3
              rw [hjx] at this
              omega
            · have : i = S.length - m.toNat + j := by omega
              subst this
              rw [hjx]; exact hlt
          rw [this, List.nil_append]
        rw [hsplit] at h
        have := List.length_filter_le (fun p : PoPowHeader G => decide (t ≤ p.header.height.toNat)) (S.drop (S.length - m.toNat + j + 1))
        rw [List.length_drop] at this
        omega
    · -- above all rounds there are only the first and the last block
      obtain ⟨i, hi1, hi⟩ := List.mem_iff_getElem.1 hxF.1
      rw [List.length_take] at hi1
      rw [List.getElem_take] at hi
      have hix : c[i]? = some x := by rw [List.getElem?_eq_getElem (by omega), hi]
      rcases Nat.eq_zero_or_pos i with h0 | h0
      · subst h0
        rw [e1] at hix
        obtain rfl := Option.some.inj hix
        exact hgP
      · have htop : ∀ d i (x : PoPowHeader G), 1 ≤ i → i + d = c.length - k.toNat - 1 → c[i]? = some x → μ ≤ lv x → 1 ≤ d → False := by
          intro d
          induction d using Nat.strong_induction_on with
          | _ d ih =>
            intro i x hi hid hx hl hd
            by_cases hex : ∃ i' x', i < i' ∧ i' < c.length - k.toNat - 1 ∧ c[i']? = some x' ∧ μ ≤ lv x'
            · obtain ⟨i', x', h1, h2, h3, h4⟩ := hex
              exact ih (c.length - k.toNat - 1 - i') (by omega) i' x' (by omega) (by omega) h3 h4 (by omega)
            · have := hi3 i x μ hi (by omega) (by have := e5.pos; omega) hx hl (fun y b h1 h2 h3 => by
                by_contra hh
                exact hex ⟨y, b, h1, h2, h3, by omega⟩)
              omega
        have hlast : i = c.length - k.toNat - 1 := by
          by_contra hne
          exact htop (c.length - k.toNat - 1 - i) i x h0 (by omega) hix hxl (by omega)
        have hpos := e5.pos
        refine (e5.mem x).2 ⟨last.interlinks.length - 1, by omega, mem_subOf.2 ⟨hxF.1, by omega, ?_⟩⟩
        rw [e5.top]
        have := hc.heights i x hix
        omega

/-- C56, violation: `m = 0` is accepted by the parameter checks and panics, in either build. -/
theorem C56_violation_m_zero (hc : FullChain mode W lv c) (k : BitVec 32) (hk : 1 ≤ k.toNat) (h2 : k.toNat + 2 ≤ c.length) :
    prove mode W c k 0 = .panic := by
  obtain ⟨g, hg⟩ : ∃ g, c[0]? = some g := ⟨_, List.getElem?_eq_getElem (by omega)⟩
  obtain ⟨last, hlast⟩ : ∃ p, c[c.length - k.toNat - 1]? = some p := ⟨_, List.getElem?_eq_getElem (by omega)⟩
  obtain ⟨sh, hsh⟩ : ∃ p, c[c.length - k.toNat]? = some p := ⟨_, List.getElem?_eq_getElem (by omega)⟩
  have hdrop : c.drop (c.length - k.toNat) = sh :: c.drop (c.length - k.toNat + 1) := by
    rw [List.drop_eq_getElem_cons (by omega), (List.getElem?_eq_some_iff.1 hsh).2]
  obtain ⟨hi1, hi2, _⟩ := hc.interlinks hg (c.length - k.toNat - 1) (by omega) last hlast
  have hlev : HasLevels W lv (c.take (c.length - k.toNat)) := fun p hp => hc.levels p (List.mem_of_mem_take hp)
  have hh : g.header.height = 1 := by
    apply BitVec.eq_of_toNat_eq
    rw [hc.heights 0 g hg]; rfl
  have hm0 : (0 : BitVec 32).toNat = 0 := rfl
  unfold prove
  rw [if_neg (by omega), if_neg (by rintro ⟨h, _⟩; rw [hm0] at h; have := k.isLt; omega),
    if_neg (by rw [BitVec.toNat_add, hm0, Nat.mod_eq_of_lt (by have := k.isLt; omega)]; omega)]
  split
  · simp at hg
  · next f rest _ =>
    have hfg : f = g := by simpa using hg
    rw [if_neg (by rw [hfg]; simp [hh]), if_neg (by omega)]
    dsimp only
    rw [hdrop]
    have hgl : ((f :: rest).take ((f :: rest).length - k.toNat)).getLast? = some last := by
      rw [List.getLast?_eq_getElem?, List.length_take, Nat.min_eq_left (by omega), List.getElem?_take_of_lt (by omega)]
      exact hlast
    rw [hgl]
    dsimp only
    cases hll : last.interlinks with
    | nil => rw [hll] at hi1; simp at hi1
    | cons a l =>
      have hr : rounds mode (a :: l) = .ok (l.length + 1) := rfl
      rw [hr]
      show (proveLoop W 0 _ (l.length + 1) f [] >>= _) = _
      simp only [proveLoop]
      rw [subChain_eq W lv _ _ _ hlev]
      have hmem : f ∈ subOf lv l.length f.header.height.toNat ((f :: rest).take ((f :: rest).length - k.toNat)) := by
        refine mem_subOf.2 ⟨?_, ?_, Nat.le_refl _⟩
        · refine List.mem_of_getElem? (i := 0) ?_
          rw [List.getElem?_take_of_lt (by omega)]; rfl
        · rw [hfg, hc.first_level hg]
          rw [hll] at hi2
          simp only [List.length_cons] at hi2
          omega
      have hpos := List.length_pos_of_mem hmem
      show ((if 0 < (subOf lv l.length f.header.height.toNat _).length then _ else _) >>= _) >>= _ = _
      rw [if_pos hpos, List.getElem?_eq_none (by omega)]
      rfl

/-- C56, violation: asking for all blocks but the first as suffix panics in a build with overflow checks (the first block has no
interlinks, `interlinks.len() - 1` underflows), although the parameter checks are passed. -/
theorem C56_violation_all_suffix (W : Pow) (g a : PoPowHeader G) (rest : List (PoPowHeader G)) (hg : g.header.height = 1)
    (hi : g.interlinks = []) (k m : BitVec 32) (hk : k.toNat = rest.length + 1) (hm : m.toNat ≤ 1) (hr : rest.length < 2 ^ 30) :
    prove .debug W (g :: a :: rest) k m = .panic := by
  unfold prove
  have h1 : (g :: a :: rest).length = rest.length + 2 := rfl
  rw [if_neg (by omega), if_neg (by omega), if_neg (by rw [BitVec.toNat_add, h1]; omega)]
  dsimp only
  rw [if_neg (by simp [hg]), if_neg (by rw [h1]; omega), show (g :: a :: rest).length - k.toNat = 1 from by omega]
  show (match a :: rest, [g].getLast? with
    | sh :: st, some last => _
    | _, _ => Outcome.err) = Outcome.panic
  show (rounds .debug g.interlinks >>= _) = _
  rw [hi]
  rfl

end

/-- A check for full chains, for the example. -/
def fullCheck (mode : Mode) (W : Pow) (lv : PoPowHeader (Fin 3) → Nat) (c : List (PoPowHeader (Fin 3))) : Bool :=
  (c.zipIdx.all fun x => x.1.header.height.toNat == x.2 + 1) &&
  (c.all fun p => match W.maxLevel p.header with | .ok l => l.toInt == (lv p : Int) | _ => false) &&
  ((c.zip (c.drop 1)).all fun x => decide (x.2.header.parentId = x.1.header.id) &&
    decide (updateInterlinks W x.1.header x.1.interlinks = .ok x.2.interlinks)) &&
  (c.all fun p => decide (p.checkInterlinks mode W.H = .ok true))

theorem fullCheck_sound (mode : Mode) (W : Pow) (lv : PoPowHeader (Fin 3) → Nat) (c : List (PoPowHeader (Fin 3)))
    (h : fullCheck mode W lv c = true) : FullChain mode W lv c := by
  unfold fullCheck at h
  simp only [Bool.and_eq_true] at h
  obtain ⟨⟨⟨h1, h2⟩, h3⟩, h4⟩ := h
  have h3' := (all_zip_chain (fun a b : PoPowHeader (Fin 3) => decide (b.header.parentId = a.header.id) &&
    decide (updateInterlinks W a.header a.interlinks = .ok b.interlinks)) c).1 h3
  rw [List.isChain_iff_getElem] at h3'
  have pair : ∀ (i : Nat) p q, c[i]? = some p → c[i + 1]? = some q → q.header.parentId = p.header.id ∧
      updateInterlinks W p.header p.interlinks = .ok q.interlinks := by
    intro i p q hp hq
    obtain ⟨a1, a2⟩ := List.getElem?_eq_some_iff.1 hp
    obtain ⟨b1, b2⟩ := List.getElem?_eq_some_iff.1 hq
    have := h3' i b1
    rw [a2, b2] at this
    simpa using this
  refine ⟨?_, fun i p q hp hq => (pair i p q hp hq).1, ?_, fun i p q hp hq => (pair i p q hp hq).2, ?_⟩
  · intro i p hp
    rw [List.all_eq_true] at h1
    have := h1 (p, i) (List.mem_zipIdx_iff_getElem?.2 hp)
    simpa using this
  · intro p hp
    rw [List.all_eq_true] at h2
    have := h2 p hp
    split at this
    · next l hl => exact ⟨l, hl, by simpa using this⟩
    · cases this
  · intro p hp
    rw [List.all_eq_true] at h4
    simpa using h4 p hp

/-- A chain as a full node would have it: interlinks updated block by block, each with its Merkle proof. -/
def toyFull (links : List Bytes) : List (Header (Fin 3)) → List (PoPowHeader (Fin 3))
  | [] => []
  | h :: hs =>
    let proof := match packInterlinks .debug links with
      | .ok fs => (match interlinkProof sumHash fs with | .ok b => b | _ => { indices := [], proofs := [] })
      | _ => { indices := [], proofs := [] }
    { header := h, interlinks := links, proof := proof } ::
      (match updateInterlinks toyPow h links with
        | .ok l => toyFull l hs
        | _ => [])

/-- Nine blocks with levels 0, 1, 0, 2, 1, 0, 1, 0 behind the first. -/
def toyChain : List (PoPowHeader (Fin 3)) := toyFull [] (toyHeaders 1 0 1 [0, 0, 1, 0, 2, 1, 0, 1, 0])

def toyLv (p : PoPowHeader (Fin 3)) : Nat := match toyPow.maxLevel p.header with | .ok l => l.toNat | _ => 0

/-- The hypotheses of `C56_prove_partial` hold for this chain; with `k = 2`, `m = 2` the blocks of heights 2 and 4 are left out. -/
example : FullChain .debug toyPow toyLv toyChain ∧ toyChain.length = 9 ∧
    (match proveLoop toyPow 2 (toyChain.take 7) 3 (toyChain.headD ⟨headerV1, [], ⟨[], []⟩⟩) [] with
      | .ok p => p.map (fun h : PoPowHeader (Fin 3) => h.header.height.toNat) == [1, 5, 3, 6, 7]
      | _ => false) = true :=
  ⟨fullCheck_sound _ _ _ _ (by decide +kernel), by decide +kernel, by decide +kernel⟩

end Verif
