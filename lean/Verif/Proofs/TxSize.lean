import Verif.Model.TxSize
import Verif.Spec.TxSize
import Verif.Proofs.Signing

set_option linter.unusedSimpArgs false
set_option linter.unusedVariables false

/-!
# Lemmas on the sizes of proofs
-/

namespace Verif.Sigma
open Verif Verif.Spec

section
variable {G : Type} {q : Nat}

mutual
/-- Size of what a proof tree turns into. -/
def treeSize : ProofTree G q → Nat
  | .unchecked _ => 32
  | .leaf _ _ _ _ _ _ => 32
  | .conj .and _ _ _ _ cs => treeSizes cs
  | .conj .or _ _ _ _ cs => treeSizes cs + 24 * (cs.length - 1)
  | .conj (.thr k _) _ _ _ _ cs => treeSizes cs + 24 * (cs.length - k.toNat)
def treeSizes : List (ProofTree G q) → Nat
  | [] => 0
  | c :: cs => treeSize c + treeSizes cs
end

mutual
/-- Size of an unchecked tree without its challenge. -/
def unchSize : Unchecked G q → Nat
  | .leaf _ _ _ _ => 32
  | .conj .and _ cs => unchSizes cs
  | .conj .or _ cs => unchSizes cs + 24 * (cs.length - 1)
  | .conj (.thr k _) _ cs => unchSizes cs + 24 * (cs.length - k.toNat)
def unchSizes : List (Unchecked G q) → Nat
  | [] => 0
  | c :: cs => unchSize c + unchSizes cs
end

theorem treeSizes_eq : ∀ (cs : List (ProofTree G q)), treeSizes cs = (cs.map treeSize).sum
  | [] => rfl
  | c :: cs => by rw [treeSizes, treeSizes_eq cs]; rfl

/-- Conjunctions of the same kind with children of the same sizes have the same size. -/
theorem treeSize_conj (k : PKind) (i i' : List (SigmaBoolean G)) (e e' : Option Challenge) (s s' : Bool) (p p' : Position)
    (cs cs' : List (ProofTree G q)) (h : cs'.map treeSize = cs.map treeSize) :
    treeSize (.conj k i' e' s' p' cs') = treeSize (.conj k i e s p cs) := by
  have hl : cs'.length = cs.length := by simpa using congrArg List.length h
  cases k <;> simp only [treeSize, treeSizes_eq, h, hl]

theorem treeSize_withSimulated (b : Bool) (t : ProofTree G q) : treeSize (t.withSimulated b) = treeSize t := by
  cases t with
  | unchecked t => rfl
  | leaf => rfl
  | conj k i e s p cs => exact treeSize_conj k _ _ _ _ _ _ _ _ _ _ rfl

theorem treeSize_withPosition (b : Position) (t : ProofTree G q) : treeSize (t.withPosition b) = treeSize t := by
  cases t with
  | unchecked t => rfl
  | leaf => rfl
  | conj k i e s p cs => exact treeSize_conj k _ _ _ _ _ _ _ _ _ _ rfl

theorem treeSize_withChallenge (b : Challenge) (t : ProofTree G q) : treeSize (t.withChallenge b) = treeSize t := by
  cases t with
  | unchecked t => cases t <;> rfl
  | leaf => rfl
  | conj k i e s p cs => exact treeSize_conj k _ _ _ _ _ _ _ _ _ _ rfl

theorem map_treeSize_map (f : ProofTree G q → ProofTree G q) (hf : ∀ t, treeSize (f t) = treeSize t)
    (cs : List (ProofTree G q)) : (cs.map f).map treeSize = cs.map treeSize := by
  rw [List.map_map]
  exact List.map_congr_left fun t _ => hf t

/-- A step that keeps sizes. -/
def KeepsSize (f : ProofTree G q → Outcome (Option (ProofTree G q))) : Prop :=
  ∀ t r, f t = .ok (some r) → treeSize r = treeSize t

theorem getD_size {f : ProofTree G q → Outcome (Option (ProofTree G q))} (hf : KeepsSize f) (t : ProofTree G q)
    {x : Option (ProofTree G q)} (h : f t = .ok x) : treeSize (x.getD t) = treeSize t := by
  cases x with
  | none => rfl
  | some r => exact hf t r h

mutual
theorem rewriteBu_size {f : ProofTree G q → Outcome (Option (ProofTree G q))} (hf : KeepsSize f) :
    ∀ (t r : ProofTree G q), rewriteBu f t = .ok r → treeSize r = treeSize t
  | .unchecked t, r, h => by
    rw [rewriteBu] at h
    obtain ⟨x, h1, h2⟩ := Outcome.bind_eq_ok.1 h
    rw [Outcome.pure_eq, Outcome.ok.injEq] at h2
    rw [← h2]; exact getD_size hf _ h1
  | .leaf p m r' e s pos, r, h => by
    rw [rewriteBu] at h
    obtain ⟨x, h1, h2⟩ := Outcome.bind_eq_ok.1 h
    rw [Outcome.pure_eq, Outcome.ok.injEq] at h2
    rw [← h2]; exact getD_size hf _ h1
  | .conj k i e s pos cs, r, h => by
    rw [rewriteBu] at h
    obtain ⟨cs', h0, h⟩ := Outcome.bind_eq_ok.1 h
    obtain ⟨x, h1, h2⟩ := Outcome.bind_eq_ok.1 h
    rw [Outcome.pure_eq, Outcome.ok.injEq] at h2
    rw [← h2, getD_size hf _ h1]
    exact treeSize_conj k _ _ _ _ _ _ _ _ _ _ (rewriteBuList_size hf cs cs' h0)
theorem rewriteBuList_size {f : ProofTree G q → Outcome (Option (ProofTree G q))} (hf : KeepsSize f) :
    ∀ (cs rs : List (ProofTree G q)), rewriteBuList f cs = .ok rs → rs.map treeSize = cs.map treeSize
  | [], rs, h => by
    rw [rewriteBuList, Outcome.ok.injEq] at h
    rw [← h]
  | c :: cs, rs, h => by
    rw [rewriteBuList] at h
    obtain ⟨b, h1, h⟩ := Outcome.bind_eq_ok.1 h
    obtain ⟨bs, h2, h⟩ := Outcome.bind_eq_ok.1 h
    rw [Outcome.pure_eq, Outcome.ok.injEq] at h
    rw [← h, List.map_cons, List.map_cons, rewriteBu_size hf c b h1, rewriteBuList_size hf cs bs h2]
end

theorem tryMap_size {g : ProofTree G q → Outcome (ProofTree G q)} (hg : ∀ t r, g t = .ok r → treeSize r = treeSize t) :
    ∀ (cs rs : List (ProofTree G q)), tryMap g cs = .ok rs → rs.map treeSize = cs.map treeSize
  | [], rs, h => by
    rw [tryMap, Outcome.ok.injEq] at h
    rw [← h]
  | c :: cs, rs, h => by
    rw [tryMap] at h
    obtain ⟨b, h1, h⟩ := Outcome.bind_eq_ok.1 h
    obtain ⟨bs, h2, h⟩ := Outcome.bind_eq_ok.1 h
    rw [Outcome.pure_eq, Outcome.ok.injEq] at h
    rw [← h, List.map_cons, List.map_cons, hg c b h1, tryMap_size hg cs bs h2]

theorem rewriteTd_size {f : ProofTree G q → Outcome (Option (ProofTree G q))} (hf : KeepsSize f) :
    ∀ (n : Nat) (t r : ProofTree G q), rewriteTd f n t = .ok r → treeSize r = treeSize t
  | 0, t, r, h => by rw [rewriteTd] at h; cases h
  | n + 1, t, r, h => by
    rw [rewriteTd] at h
    obtain ⟨x, h1, h⟩ := Outcome.bind_eq_ok.1 h
    rw [← getD_size hf t h1]
    cases hx : x.getD t with
    | unchecked t' =>
      rw [hx] at h; dsimp only at h
      rw [Outcome.pure_eq, Outcome.ok.injEq] at h; rw [← h]
    | leaf p m r' e s pos =>
      rw [hx] at h; dsimp only at h
      rw [Outcome.pure_eq, Outcome.ok.injEq] at h; rw [← h]
    | conj k i e s pos cs =>
      rw [hx] at h; dsimp only at h
      obtain ⟨cs', h2, h⟩ := Outcome.bind_eq_ok.1 h
      rw [Outcome.pure_eq, Outcome.ok.injEq] at h
      rw [← h]
      exact treeSize_conj k _ _ _ _ _ _ _ _ _ _ (tryMap_size (rewriteTd_size hf n) cs cs' h2)

theorem castToUnp_eq {cs us : List (ProofTree G q)} (h : castToUnp cs = .ok us) : us = cs := by
  unfold castToUnp at h
  split at h
  · rw [Outcome.ok.injEq] at h; exact h.symm
  · cases h

theorem expectUnproven_eq {t r : ProofTree G q} (h : expectUnproven t = .ok r) : r = t := by
  unfold expectUnproven at h
  split at h
  · rw [Outcome.ok.injEq] at h; exact h.symm
  · cases h

end

section
variable {G : Type} {q : Nat} [DecidableEq G] [AddCommGroup G] [Module (ZMod q) G] (E : ProverEnv G q)

theorem markStep_size : KeepsSize (markStep E) := by
  intro t r h
  cases t with
  | unchecked t => rw [markStep] at h; cases h
  | leaf p m r' e s pos =>
    simp only [markStep, Outcome.ok.injEq, Option.some.injEq] at h
    rw [← h]; exact treeSize_withSimulated _ _
  | conj k i e s pos cs =>
    cases k <;> rw [markStep] at h <;> obtain ⟨us, h1, h⟩ := Outcome.bind_eq_ok.1 h <;>
      rw [Outcome.pure_eq, Outcome.ok.injEq, Option.some.injEq] at h <;> rw [← h] <;>
      exact treeSize_conj _ _ _ _ _ _ _ _ _ _ _ rfl

omit [AddCommGroup G] [Module (ZMod q) G] in
theorem setPositions_size {pos : Position} {cs rs : List (ProofTree G q)} (h : setPositions pos cs = .ok rs) :
    rs.map treeSize = cs.map treeSize := by
  unfold setPositions at h
  obtain ⟨us, h1, h⟩ := Outcome.bind_eq_ok.1 h
  rw [Outcome.pure_eq, Outcome.ok.injEq] at h
  rw [← h, castToUnp_eq h1]
  apply List.ext_getElem?
  intro j
  simp only [List.getElem?_map, List.getElem?_mapIdx, Option.map_map]
  cases cs[j]? with
  | none => rfl
  | some c => simp only [Option.map_some, Function.comp_apply, treeSize_withPosition]

omit [DecidableEq G] [AddCommGroup G] [Module (ZMod q) G] in
theorem keepReal_size (k : Nat) : ∀ (n : Nat) (cs : List (ProofTree G q)), (keepReal k n cs).map treeSize = cs.map treeSize
  | _, [] => rfl
  | n, c :: cs => by
    rw [keepReal]
    split
    · rw [List.map_cons, List.map_cons, keepReal_size k (n + 1) cs]
      split
      · rw [treeSize_withSimulated]
      · rfl
    · rw [List.map_cons, List.map_cons, keepReal_size k n cs]

omit [AddCommGroup G] [Module (ZMod q) G] in
theorem polishChildren_size {kind : PKind} {s : Bool} {us rs : List (ProofTree G q)}
    (h : polishChildren kind s us = .ok rs) : rs.map treeSize = us.map treeSize := by
  unfold polishChildren at h
  split at h
  · rw [Outcome.ok.injEq] at h
    rw [← h]; exact map_treeSize_map _ (treeSize_withSimulated true) _
  · cases kind with
    | and => dsimp only at h; rw [Outcome.ok.injEq] at h; rw [h]
    | or =>
      dsimp only at h
      unfold makeCorChildrenSimulated at h
      obtain ⟨us', h1, h'⟩ := Outcome.bind_eq_ok.1 h
      rw [castToUnp_eq h1] at h'
      cases hf : us.find? ProofTree.isReal with
      | none => rw [hf] at h'; cases h'
      | some first =>
        rw [hf] at h'; dsimp only at h'
        rw [Outcome.pure_eq, Outcome.ok.injEq] at h'
        rw [← h']
        refine map_treeSize_map _ (fun t => ?_) _
        split
        · rfl
        · exact treeSize_withSimulated _ _
    | thr k p => dsimp only at h; rw [Outcome.ok.injEq] at h; rw [← h]; exact keepReal_size _ _ _

omit [AddCommGroup G] [Module (ZMod q) G] in
theorem polishStep_size : KeepsSize (polishStep (G := G) (q := q)) := by
  intro t r h
  cases t with
  | unchecked t => rw [polishStep] at h; cases h
  | leaf => rw [polishStep] at h; cases h
  | conj k i e s pos cs =>
    rw [polishStep] at h
    obtain ⟨us, h1, h⟩ := Outcome.bind_eq_ok.1 h
    obtain ⟨ms, h2, h⟩ := Outcome.bind_eq_ok.1 h
    obtain ⟨ps, h3, h⟩ := Outcome.bind_eq_ok.1 h
    rw [Outcome.pure_eq, Outcome.ok.injEq, Option.some.injEq] at h
    rw [← h]
    refine treeSize_conj _ _ _ _ _ _ _ _ _ _ _ ?_
    rw [setPositions_size h3, polishChildren_size h2, castToUnp_eq h1]

theorem step4Real_size {cs rs : List (ProofTree G q)} (h : step4RealChildren E cs = .ok rs) :
    rs.map treeSize = cs.map treeSize := by
  unfold step4RealChildren at h
  obtain ⟨us, h1, h⟩ := Outcome.bind_eq_ok.1 h
  rw [Outcome.pure_eq, Outcome.ok.injEq] at h
  rw [← h, castToUnp_eq h1]
  refine map_treeSize_map _ (fun t => ?_) _
  split
  · rfl
  · exact treeSize_withChallenge _ _

theorem step4Or_size (e : Challenge) : ∀ (cs : List (ProofTree G q)), (step4OrChildren E e cs).map treeSize = cs.map treeSize
  | [] => rfl
  | c :: cs => by
    rw [step4OrChildren, List.map_cons, List.map_cons, treeSize_withChallenge,
      map_treeSize_map _ (fun t => treeSize_withChallenge _ _)]

theorem step4Thr_size (poly : Gf.Poly) : ∀ (i : Nat) (cs rs : List (ProofTree G q)), step4ThrChildren poly i cs = .ok rs →
    rs.map treeSize = cs.map treeSize
  | i, [], rs, h => by rw [step4ThrChildren, Outcome.ok.injEq] at h; rw [← h]
  | i, c :: cs, rs, h => by
    rw [step4ThrChildren] at h
    obtain ⟨v, h1, h⟩ := Outcome.bind_eq_ok.1 h
    obtain ⟨r, h2, h⟩ := Outcome.bind_eq_ok.1 h
    rw [Outcome.pure_eq, Outcome.ok.injEq] at h
    rw [← h, List.map_cons, List.map_cons, treeSize_withChallenge, step4Thr_size poly (i + 1) cs r h2]

omit [DecidableEq G] [AddCommGroup G] [Module (ZMod q) G] in
theorem withPolynomial_kind {k : Byte} {items : List (SigmaBoolean G)} {poly : Gf.Poly} {kind : PKind}
    (h : withPolynomial k items poly = .ok kind) : kind = .thr k (some poly) := by
  unfold withPolynomial at h
  obtain ⟨bs, h1, h⟩ := Outcome.bind_eq_ok.1 h
  split at h
  · cases h
  · split at h
    · rw [Outcome.pure_eq, Outcome.ok.injEq] at h; exact h.symm
    · cases h

omit [DecidableEq G] [AddCommGroup G] [Module (ZMod q) G] in
theorem treeSize_thr (k : Byte) (p p' : Option Gf.Poly) (i i' : List (SigmaBoolean G)) (e e' : Option Challenge)
    (s s' : Bool) (pos pos' : Position) (cs cs' : List (ProofTree G q)) (h : cs'.map treeSize = cs.map treeSize) :
    treeSize (.conj (.thr k p') i' e' s' pos' cs') = treeSize (.conj (.thr k p) i e s pos cs) := by
  have hl : cs'.length = cs.length := by simpa using congrArg List.length h
  simp only [treeSize, treeSizes_eq, h, hl]

theorem step5_size {p : LeafProp G} {r : Option (ZMod q)} {e : Option Challenge} {s : Bool} {pos : Position}
    {t : ProofTree G q} (h : step5 E p r e s pos = .ok (some t)) : treeSize t = 32 := by
  unfold step5 at h
  repeat' split at h
  all_goals first
    | (rw [Outcome.ok.injEq, Option.some.injEq] at h; rw [← h, treeSize])
    | cases h

theorem commitStep_size : KeepsSize (commitStep E) := by
  intro t r h
  cases t with
  | unchecked t => rw [commitStep] at h; cases h
  | leaf p m r' e s pos => rw [commitStep] at h; rw [step5_size E h, treeSize]
  | conj k i e s pos cs =>
    cases k with
    | and =>
      unfold commitStep at h
      dsimp only at h
      split at h
      · cases h
      · cases e with
        | none => cases h
        | some e =>
          dsimp only at h
          rw [Outcome.ok.injEq, Option.some.injEq] at h
          rw [← h]
          exact treeSize_conj _ _ _ _ _ _ _ _ _ _ _ (map_treeSize_map _ (treeSize_withChallenge e) _)
    | or =>
      unfold commitStep at h
      dsimp only at h
      split at h
      · obtain ⟨us, h1, h⟩ := Outcome.bind_eq_ok.1 h
        rw [Outcome.pure_eq, Outcome.ok.injEq, Option.some.injEq] at h
        rw [← h]
        exact treeSize_conj _ _ _ _ _ _ _ _ _ _ _ (step4Real_size E h1)
      · cases e with
        | none => cases h
        | some e =>
          dsimp only at h
          obtain ⟨us, h1, h⟩ := Outcome.bind_eq_ok.1 h
          rw [Outcome.pure_eq, Outcome.ok.injEq, Option.some.injEq] at h
          rw [← h, castToUnp_eq h1]
          exact treeSize_conj _ _ _ _ _ _ _ _ _ _ _ (step4Or_size E e cs)
    | thr k poly =>
      unfold commitStep at h
      dsimp only at h
      split at h
      · obtain ⟨us, h1, h⟩ := Outcome.bind_eq_ok.1 h
        rw [Outcome.pure_eq, Outcome.ok.injEq, Option.some.injEq] at h
        rw [← h]
        exact treeSize_conj _ _ _ _ _ _ _ _ _ _ _ (step4Real_size E h1)
      · cases e with
        | none => cases h
        | some e =>
          dsimp only at h
          obtain ⟨us, h1, h⟩ := Outcome.bind_eq_ok.1 h
          split at h
          · cases h
          · obtain ⟨p2, h2, h⟩ := Outcome.bind_eq_ok.1 h
            obtain ⟨cs', h3, h⟩ := Outcome.bind_eq_ok.1 h
            obtain ⟨kind, h4, h⟩ := Outcome.bind_eq_ok.1 h
            rw [Outcome.pure_eq, Outcome.ok.injEq, Option.some.injEq] at h
            rw [← h, withPolynomial_kind h4]
            refine treeSize_thr _ _ _ _ _ _ _ _ _ _ _ _ _ ?_
            rw [step4Thr_size p2 0 us cs' h3, castToUnp_eq h1]

theorem step9Thr_size (poly : Gf.Poly) : ∀ (i : Nat) (cs rs : List (ProofTree G q)), step9ThrChildren poly i cs = .ok rs →
    rs.map treeSize = cs.map treeSize
  | i, [], rs, h => by rw [step9ThrChildren, Outcome.ok.injEq] at h; rw [← h]
  | i, c :: cs, rs, h => by
    rw [step9ThrChildren] at h
    obtain ⟨v, h1, h⟩ := Outcome.bind_eq_ok.1 h
    obtain ⟨r, h2, h⟩ := Outcome.bind_eq_ok.1 h
    rw [Outcome.pure_eq, Outcome.ok.injEq] at h
    rw [← h, List.map_cons, List.map_cons, step9Thr_size poly (i + 1) cs r h2]
    congr 1
    unfold step9ThrChild at h1
    split at h1
    · obtain ⟨w, _, h1⟩ := Outcome.bind_eq_ok.1 h1
      rw [Outcome.pure_eq, Outcome.ok.injEq] at h1
      rw [← h1, treeSize_withChallenge]
    · rw [Outcome.ok.injEq] at h1; rw [h1]

theorem provingStep_size : KeepsSize (provingStep E) := by
  intro t r h
  cases t with
  | unchecked t => cases t <;> rw [provingStep] at h <;> cases h
  | leaf p m r' e s pos =>
    rw [provingStep] at h
    split at h
    · unfold step9Leaf at h
      cases e with
      | none => cases h
      | some e =>
        dsimp only at h
        obtain ⟨z, _, h⟩ := Outcome.bind_eq_ok.1 h
        rw [Outcome.pure_eq, Outcome.ok.injEq, Option.some.injEq] at h
        rw [← h]; rfl
    · split at h <;> rw [Outcome.ok.injEq, Option.some.injEq] at h <;> rw [← h] <;> rfl
  | conj k i e s pos cs =>
    cases k with
    | and =>
      unfold provingStep at h
      dsimp only at h
      split at h
      · cases h
      · cases e with
        | none => cases h
        | some e =>
          dsimp only at h
          rw [Outcome.ok.injEq, Option.some.injEq] at h
          rw [← h]
          exact treeSize_conj _ _ _ _ _ _ _ _ _ _ _ (map_treeSize_map _ (treeSize_withChallenge e) _)
    | or =>
      unfold provingStep at h
      dsimp only at h
      split at h
      · cases h
      · cases e with
        | none => cases h
        | some e =>
          dsimp only at h
          rw [Outcome.ok.injEq, Option.some.injEq] at h
          rw [← h]
          refine treeSize_conj _ _ _ _ _ _ _ _ _ _ _ (map_treeSize_map _ (fun t => ?_) _)
          split
          · exact treeSize_withChallenge _ _
          · rfl
    | thr k poly =>
      unfold provingStep at h
      dsimp only at h
      split at h
      · cases h
      · cases e with
        | none => cases h
        | some e =>
          dsimp only at h
          obtain ⟨⟨ps, vs⟩, h1, h⟩ := Outcome.bind_eq_ok.1 h
          dsimp only at h
          obtain ⟨p2, h2, h⟩ := Outcome.bind_eq_ok.1 h
          obtain ⟨cs', h3, h⟩ := Outcome.bind_eq_ok.1 h
          obtain ⟨kind, h4, h⟩ := Outcome.bind_eq_ok.1 h
          rw [Outcome.pure_eq, Outcome.ok.injEq, Option.some.injEq] at h
          rw [← h, withPolynomial_kind h4]
          exact treeSize_thr _ _ _ _ _ _ _ _ _ _ _ _ _ (step9Thr_size p2 0 cs cs' h3)

end

section
variable {G : Type} {q : Nat}

mutual
theorem unproven_size : ∀ (sb : SigmaBoolean G) (t : ProofTree G q), convertToUnproven sb = .ok t → treeSize t = responseSize sb
  | .trivial _, t, h => by rw [convertToUnproven] at h; cases h
  | .dlog _, t, h => by rw [convertToUnproven, Outcome.ok.injEq] at h; rw [← h, treeSize, responseSize]
  | .dht _ _ _ _, t, h => by rw [convertToUnproven, Outcome.ok.injEq] at h; rw [← h, treeSize, responseSize]
  | .cand l, t, h => by
    rw [convertToUnproven] at h
    obtain ⟨cs, h1, h⟩ := Outcome.bind_eq_ok.1 h
    rw [Outcome.pure_eq, Outcome.ok.injEq] at h
    rw [← h, treeSize, responseSize, (unproven_sizes l cs h1).1]
  | .cor l, t, h => by
    rw [convertToUnproven] at h
    obtain ⟨cs, h1, h⟩ := Outcome.bind_eq_ok.1 h
    rw [Outcome.pure_eq, Outcome.ok.injEq] at h
    rw [← h, treeSize, responseSize, (unproven_sizes l cs h1).1, (unproven_sizes l cs h1).2]
  | .cth k l, t, h => by
    rw [convertToUnproven] at h
    obtain ⟨cs, h1, h⟩ := Outcome.bind_eq_ok.1 h
    rw [Outcome.pure_eq, Outcome.ok.injEq] at h
    rw [← h, treeSize, responseSize, (unproven_sizes l cs h1).1, (unproven_sizes l cs h1).2]
theorem unproven_sizes : ∀ (l : List (SigmaBoolean G)) (cs : List (ProofTree G q)), convertToUnprovenList l = .ok cs →
    treeSizes cs = responseSizes l ∧ cs.length = l.length
  | [], cs, h => by rw [convertToUnprovenList, Outcome.ok.injEq] at h; rw [← h, treeSizes, responseSizes]; exact ⟨rfl, rfl⟩
  | a :: l, cs, h => by
    rw [convertToUnprovenList] at h
    obtain ⟨t, h1, h⟩ := Outcome.bind_eq_ok.1 h
    obtain ⟨ts, h2, h⟩ := Outcome.bind_eq_ok.1 h
    rw [Outcome.pure_eq, Outcome.ok.injEq] at h
    obtain ⟨a1, a2⟩ := unproven_sizes l ts h2
    rw [← h, treeSizes, responseSizes, unproven_size a t h1, a1, List.length_cons, List.length_cons, a2]
    exact ⟨rfl, rfl⟩
end

mutual
theorem unchecked_size : ∀ (t : ProofTree G q) (u : Unchecked G q), convertToUnchecked t = .ok u → unchSize u = treeSize t
  | .unchecked (.leaf p m e z), u, h => by rw [convertToUnchecked, Outcome.ok.injEq] at h; rw [← h, unchSize, treeSize]
  | .unchecked (.conj _ _ _), u, h => by rw [convertToUnchecked] at h; cases h
  | .leaf _ _ _ _ _ _, u, h => by rw [convertToUnchecked] at h; cases h
  | .conj .and _ (some e) _ _ cs, u, h => by
    rw [convertToUnchecked] at h
    obtain ⟨us, h1, h⟩ := Outcome.bind_eq_ok.1 h
    rw [Outcome.pure_eq, Outcome.ok.injEq] at h
    rw [← h, unchSize, treeSize, (unchecked_sizes cs us h1).1]
  | .conj .or _ (some e) _ _ cs, u, h => by
    rw [convertToUnchecked] at h
    obtain ⟨us, h1, h⟩ := Outcome.bind_eq_ok.1 h
    rw [Outcome.pure_eq, Outcome.ok.injEq] at h
    rw [← h, unchSize, treeSize, (unchecked_sizes cs us h1).1, (unchecked_sizes cs us h1).2]
  | .conj (.thr k poly) _ (some e) _ _ cs, u, h => by
    rw [convertToUnchecked] at h
    obtain ⟨us, h1, h⟩ := Outcome.bind_eq_ok.1 h
    cases poly with
    | none => cases h
    | some poly =>
      dsimp only at h
      rw [Outcome.pure_eq, Outcome.ok.injEq] at h
      rw [← h, unchSize, treeSize, (unchecked_sizes cs us h1).1, (unchecked_sizes cs us h1).2]
  | .conj .and _ none _ _ _, u, h => by rw [convertToUnchecked] at h; cases h
  | .conj .or _ none _ _ _, u, h => by rw [convertToUnchecked] at h; cases h
  | .conj (.thr _ _) _ none _ _ _, u, h => by rw [convertToUnchecked] at h; cases h
theorem unchecked_sizes : ∀ (cs : List (ProofTree G q)) (us : List (Unchecked G q)), convertToUncheckedList cs = .ok us →
    unchSizes us = treeSizes cs ∧ us.length = cs.length
  | [], us, h => by rw [convertToUncheckedList, Outcome.ok.injEq] at h; rw [← h, unchSizes, treeSizes]; exact ⟨rfl, rfl⟩
  | c :: cs, us, h => by
    rw [convertToUncheckedList] at h
    obtain ⟨t, h1, h⟩ := Outcome.bind_eq_ok.1 h
    obtain ⟨ts, h2, h⟩ := Outcome.bind_eq_ok.1 h
    rw [Outcome.pure_eq, Outcome.ok.injEq] at h
    obtain ⟨a1, a2⟩ := unchecked_sizes cs ts h2
    rw [← h, unchSizes, treeSizes, unchecked_size c t h1, a1, List.length_cons, List.length_cons, a2]
    exact ⟨rfl, rfl⟩
end

theorem chal_len (e : Challenge) (wr : Bool) : (if wr then e.1 else []).length = if wr then 24 else 0 := by
  cases wr
  · rfl
  · exact e.2

mutual
theorem sigWrite_size : ∀ (t : Unchecked G q) (wr : Bool) (bs : Bytes), sigWrite t wr = .ok bs →
    bs.length = (if wr then 24 else 0) + unchSize t
  | .leaf _ _ e z, wr, bs, h => by
    rw [sigWrite, Outcome.ok.injEq] at h
    rw [← h, List.length_append, chal_len, scalarBytes_length, unchSize]
  | .conj .and e cs, wr, bs, h => by
    rw [sigWrite] at h
    obtain ⟨b, h1, h⟩ := Outcome.bind_eq_ok.1 h
    rw [Outcome.pure_eq, Outcome.ok.injEq] at h
    rw [← h, List.length_append, chal_len, unchSize, sigWriteAll_size cs b h1]
  | .conj .or e cs, wr, bs, h => by
    rw [sigWrite] at h
    obtain ⟨b, h1, h⟩ := Outcome.bind_eq_ok.1 h
    rw [Outcome.pure_eq, Outcome.ok.injEq] at h
    rw [← h, List.length_append, chal_len, unchSize, sigWriteOr_size cs b h1]
  | .conj (.thr k poly) e cs, wr, bs, h => by
    rw [sigWrite] at h
    obtain ⟨pb, h0, h⟩ := Outcome.bind_eq_ok.1 h
    obtain ⟨b, h1, h⟩ := Outcome.bind_eq_ok.1 h
    rw [Outcome.pure_eq, Outcome.ok.injEq] at h
    have hp : pb.length = (cs.length - k.toNat) * 24 := by
      unfold polyBytesChecked at h0
      obtain ⟨x, g1, g2⟩ := Outcome.bind_eq_ok.1 h0
      split at g2
      · cases g2
      · split at g2
        · rw [Outcome.ok.injEq] at g2
          rw [← g2]; assumption
        · cases g2
    rw [← h, List.length_append, List.length_append, chal_len, unchSize, sigWriteAll_size cs b h1, hp]
    omega
theorem sigWriteAll_size : ∀ (cs : List (Unchecked G q)) (bs : Bytes), sigWriteAll cs = .ok bs → bs.length = unchSizes cs
  | [], bs, h => by rw [sigWriteAll, Outcome.ok.injEq] at h; rw [← h, unchSizes]; rfl
  | c :: cs, bs, h => by
    rw [sigWriteAll] at h
    obtain ⟨b, h1, h⟩ := Outcome.bind_eq_ok.1 h
    obtain ⟨b2, h2, h⟩ := Outcome.bind_eq_ok.1 h
    rw [Outcome.pure_eq, Outcome.ok.injEq] at h
    have := sigWrite_size c false b h1
    rw [← h, List.length_append, sigWriteAll_size cs b2 h2, this, unchSizes]
    simp
theorem sigWriteOr_size : ∀ (cs : List (Unchecked G q)) (bs : Bytes), sigWriteOr cs = .ok bs →
    bs.length = unchSizes cs + 24 * (cs.length - 1)
  | [], bs, h => by rw [sigWriteOr, Outcome.ok.injEq] at h; rw [← h, unchSizes]; rfl
  | [c], bs, h => by
    rw [sigWriteOr] at h
    have := sigWrite_size c false bs h
    rw [this, unchSizes, unchSizes]
    simp
  | c :: d :: cs, bs, h => by
    rw [sigWriteOr] at h
    · obtain ⟨b, h1, h⟩ := Outcome.bind_eq_ok.1 h
      obtain ⟨b2, h2, h⟩ := Outcome.bind_eq_ok.1 h
      rw [Outcome.pure_eq, Outcome.ok.injEq] at h
      have g1 := sigWrite_size c true b h1
      have g2 := sigWriteOr_size (d :: cs) b2 h2
      have g3 : unchSizes (c :: d :: cs) = unchSize c + unchSizes (d :: cs) := by rw [unchSizes]
      rw [← h, List.length_append, g1, g2, g3]
      simp only [List.length_cons, if_true]
      omega
    · simp
end

end

/-- The size of a proof. -/
theorem generateProof_size {G : Type} {q : Nat} [DecidableEq G] [AddCommGroup G] [Module (ZMod q) G] (E : ProverEnv G q)
    (sb : SigmaBoolean G) (m sig : Bytes) (h : generateProof E sb m = .ok sig) : sig.length = proofSize sb := by
  have main : ∀ (t : Outcome (ProofTree G q)), t = convertToUnproven sb →
      (t >>= fun tree => proveToUnchecked E (sbDepth sb) tree m >>= fun t => serializeSig t) = .ok sig →
      sig.length = 24 + responseSize sb := by
    rintro t ht h
    obtain ⟨t0, h0, h⟩ := Outcome.bind_eq_ok.1 h
    obtain ⟨U, h1, h2⟩ := Outcome.bind_eq_ok.1 h
    have e0 := unproven_size sb t0 (ht ▸ h0)
    have e2 := sigWrite_size U true sig h2
    unfold proveToUnchecked at h1
    obtain ⟨s1, a1, h1⟩ := Outcome.bind_eq_ok.1 h1
    split at h1
    · cases h1
    · obtain ⟨s3, a2, h1⟩ := Outcome.bind_eq_ok.1 h1
      obtain ⟨s6, a3, h1⟩ := Outcome.bind_eq_ok.1 h1
      obtain ⟨fs, a4, h1⟩ := Outcome.bind_eq_ok.1 h1
      obtain ⟨s9, a5, h1⟩ := Outcome.bind_eq_ok.1 h1
      unfold markReal at a1
      obtain ⟨x1, b1, c1⟩ := Outcome.bind_eq_ok.1 a1
      unfold polishSimulated at a2
      obtain ⟨x2, b2, c2⟩ := Outcome.bind_eq_ok.1 a2
      unfold simulateAndCommit at a3
      obtain ⟨x3, b3, c3⟩ := Outcome.bind_eq_ok.1 a3
      have r1 := rewriteBu_size (markStep_size E) _ _ b1
      have r2 := rewriteTd_size polishStep_size _ _ _ b2
      have r3 := rewriteTd_size (commitStep_size E) _ _ _ b3
      have r4 := rewriteTd_size (provingStep_size E) _ _ _ a5
      rw [← expectUnproven_eq c1] at r1
      rw [← expectUnproven_eq c2] at r2
      rw [← expectUnproven_eq c3] at r3
      rw [treeSize_withChallenge] at r4
      have r5 := unchecked_size _ _ h1
      rw [e2, r5, r4, r3, r2, r1, e0]
      rfl
  cases sb with
  | trivial b =>
    cases b with
    | true => rw [generateProof, Outcome.ok.injEq] at h; rw [← h]; rfl
    | false => rw [generateProof] at h; cases h
  | _ => exact main _ rfl h

end Verif.Sigma

namespace Verif
open Verif.Sigma Verif.Spec

theorem putU16_size (n : Nat) (h : n < 65536) : (putU16 (BitVec.ofNat 16 n)).length = lengthSize n := by
  have hv : ((BitVec.ofNat 16 n).setWidth 64).toNat = n := by
    rw [BitVec.toNat_setWidth, BitVec.toNat_ofNat]; omega
  have h0 := (putU64_length ((BitVec.ofNat 16 n).setWidth 64)).1
  have h1 := putU64_length_le_iff _ 0 _ hv
  have h2 := putU64_length_le_iff _ 1 _ hv
  have h3 := putU64_length_le_iff _ 2 _ hv
  rw [hv] at h1 h2 h3
  show (putU64 ((BitVec.ofNat 16 n).setWidth 64)).length = _
  unfold lengthSize
  norm_num at h1 h2 h3
  split
  · omega
  · split <;> omega

theorem proofSer_size (p : ProofBytes) (h : p.toBytes.length < 65536) :
    p.ser.length = 1 + proofCost p.toBytes.length := by
  cases p with
  | empty =>
    have := putU16_size 0 (by omega)
    show (putU16 (BitVec.ofNat 16 0)).length = _
    rw [this]; rfl
  | some b =>
    show (putU16 (BitVec.ofNat 16 b.length) ++ b).length = 1 + proofCost b.length
    have h' : b.length < 65536 := h
    rw [List.length_append, putU16_size _ h']
    unfold proofCost
    have : 1 ≤ lengthSize b.length := by
      unfold lengthSize
      split
      · omega
      · split <;> omega
    omega

section
variable {G B T : Type} [DecidableEq G]

theorem serInputs_size (E : Sers G B T) : ∀ (is : List (Input G B)) (b0 : Bytes),
    (∀ i ∈ is, i.proof.proof.toBytes.length < 65536) → serMany (Input.ser E) (is.map Input.toSign) = .ok b0 →
    ∃ b, serMany (Input.ser E) is = .ok b ∧
      b.length = b0.length + (is.map fun i => proofCost i.proof.proof.toBytes.length).sum
  | [], b0, _, h => by
    rw [List.map_nil, serMany, Outcome.ok.injEq] at h
    exact ⟨[], rfl, by rw [← h]; rfl⟩
  | i :: is, b0, hs, h => by
    rw [List.map_cons, serMany] at h
    obtain ⟨x, h1, h⟩ := Outcome.bind_eq_ok.1 h
    obtain ⟨y, h2, h⟩ := Outcome.bind_eq_ok.1 h
    rw [Outcome.pure_eq, Outcome.ok.injEq] at h
    obtain ⟨b, g1, g2⟩ := serInputs_size E is y (fun i hi => hs i (List.mem_cons_of_mem _ hi)) h2
    unfold Input.ser ProverResult.ser at h1
    obtain ⟨z, h3, h1⟩ := Outcome.bind_eq_ok.1 h1
    obtain ⟨e, h4, h3⟩ := Outcome.bind_eq_ok.1 h3
    rw [Outcome.pure_eq, Outcome.ok.injEq] at h1 h3
    have hi : Input.ser E i = .ok (i.boxId ++ (i.proof.proof.ser ++ e)) := by
      unfold Input.ser ProverResult.ser
      rw [show i.proof.extension.ser E = .ok e from h4]
      rfl
    refine ⟨i.boxId ++ (i.proof.proof.ser ++ e) ++ b, ?_, ?_⟩
    · rw [serMany, hi, Outcome.bind_ok, g1]; rfl
    · have e1 := proofSer_size i.proof.proof (hs i (by simp))
      have e2 : (ProofBytes.empty.ser).length = 1 := proofSer_size .empty (by simp [ProofBytes.toBytes])
      rw [← h, ← h1, ← h3]
      simp only [List.length_append, List.map_cons, List.sum_cons, g2, e1, Input.toSign, e2]
      omega

theorem serTx_size (E : Sers G B T) (is : List (Input G B)) (d : Option (List Bytes)) (cands : List (BoxCand G B T))
    (m : Bytes) (hs : ∀ i ∈ is, i.proof.proof.toBytes.length < 65536)
    (h : serTxParts E (is.map Input.toSign) d cands = .ok m) :
    ∃ b, serTxParts E is d cands = .ok b ∧
      b.length = m.length + (is.map fun i => proofCost i.proof.proof.toBytes.length).sum := by
  unfold serTxParts at h
  rw [List.length_map] at h
  obtain ⟨ni, h1, h⟩ := Outcome.bind_eq_ok.1 h
  obtain ⟨bi, h2, h⟩ := Outcome.bind_eq_ok.1 h
  obtain ⟨bd, h3, h⟩ := Outcome.bind_eq_ok.1 h
  obtain ⟨nt, h4, h⟩ := Outcome.bind_eq_ok.1 h
  obtain ⟨bt, h5, h⟩ := Outcome.bind_eq_ok.1 h
  obtain ⟨no, h6, h⟩ := Outcome.bind_eq_ok.1 h
  obtain ⟨bo, h7, h⟩ := Outcome.bind_eq_ok.1 h
  rw [Outcome.pure_eq, Outcome.ok.injEq] at h
  obtain ⟨b, g1, g2⟩ := serInputs_size E is bi hs h2
  refine ⟨ni ++ b ++ bd ++ nt ++ bt ++ no ++ bo, ?_, ?_⟩
  · unfold serTxParts
    refine Outcome.bind_eq_ok.2 ⟨ni, h1, Outcome.bind_eq_ok.2 ⟨b, g1, Outcome.bind_eq_ok.2 ⟨bd, h3,
      Outcome.bind_eq_ok.2 ⟨nt, h4, Outcome.bind_eq_ok.2 ⟨bt, h5, Outcome.bind_eq_ok.2 ⟨no, h6,
      Outcome.bind_eq_ok.2 ⟨bo, h7, rfl⟩⟩⟩⟩⟩⟩⟩
  · rw [← h]
    simp only [List.length_append, g2]
    omega

/-- The estimate is the size of the transaction without proofs and two bytes per input. -/
theorem estimate_ok (E : Sers G B T) {u : UnsignedTransaction G B T} {m : Bytes} (h : u.bytesToSign E = .ok m) :
    estimateTxSize E (.ok u) = .ok (m.length + 2 * u.inputs.length) := by
  have hi : (u.inputs.map fun i => Input.ofUnsigned i mockProof).map Input.toSign = u.inputs.map UnsignedInput.toSign := by
    rw [List.map_map]; rfl
  obtain ⟨o, _, h2⟩ := signed_new E h hi
  obtain ⟨h3, _⟩ := unsigned_bytes_spec E h
  rw [← hi] at h3
  obtain ⟨b, h4, h5⟩ := serTx_size E _ _ _ _ (by
    intro i hm
    obtain ⟨j, _, rfl⟩ := List.mem_map.1 hm
    show 2 < 65536
    omega) h3
  unfold estimateTxSize
  refine Outcome.bind_eq_ok.2 ⟨u, rfl, Outcome.bind_eq_ok.2 ⟨_, h2, Outcome.bind_eq_ok.2 ⟨b, h4, ?_⟩⟩⟩
  rw [Outcome.pure_eq, Outcome.ok.injEq, h5, List.map_map]
  have : (fun i : Input G B => proofCost i.proof.proof.toBytes.length) ∘ (fun i => Input.ofUnsigned i mockProof) =
      fun _ : UnsignedInput G B => 2 := by
    funext i; rfl
  rw [this, List.map_const', List.sum_replicate, smul_eq_mul, Nat.mul_comm]

variable {q : Nat} [AddCommGroup G] [Module (ZMod q) G]

/-- The proof the wallet attaches. -/
theorem walletProof_size {P : WalletP G q} {hints : Option (TxHints G q)} {i : Nat} {sb : SigmaBoolean G} {m : Bytes}
    {p : ProofBytes} (h : P.proof hints i sb m = .ok p) : p.toBytes.length = proofSize sb := by
  unfold WalletP.proof at h
  obtain ⟨bs, h1, h⟩ := Outcome.bind_eq_ok.1 h
  have := generateProof_size _ sb m bs h1
  rw [Outcome.pure_eq, Outcome.ok.injEq] at h
  cases sb <;> rw [← h] <;> first | rfl | exact this

/-- The size of a signed transaction. -/
theorem signed_size {reduce : Reduce G B T} {P : WalletP G q} {E : Sers G B T} {S : StateCtx G}
    {u : UnsignedTransaction G B T} {c : TxBoxes G B T} {hints : Option (TxHints G q)} {t : Tx G B T} {m : Bytes}
    (hm : u.bytesToSign E = .ok m) (ht : signTransaction reduce P E S u c hints = .ok t) (sbs : List (SigmaBoolean G))
    (hl : sbs.length = u.inputs.length)
    (hp : ∀ i inp sb, u.inputs[i]? = some inp → sbs[i]? = some sb →
      ∃ ext, inputProp reduce S (u.spend E) c i inp.boxId = .ok (sb, ext))
    (hs : ∀ sb ∈ sbs, proofSize sb < 65536) :
    ∃ bs, t.ser E = .ok bs ∧ bs.length = m.length + (sbs.map fun sb => proofCost (proofSize sb)).sum := by
  obtain ⟨m', o, h1, h2, h3, h4⟩ := signTransaction_spec.1 ht
  have hsg := signInputs_toSign h3
  obtain ⟨h5, h6⟩ := (signInputs_spec _ _ _ _ _ _ _ _ _ _ _).1 h3
  have hsize : ∀ (k : Nat) (x : Input G B) (sb : SigmaBoolean G), t.inputs[k]? = some x → sbs[k]? = some sb →
      x.proof.proof.toBytes.length = proofSize sb := by
    intro k x sb hx hsb
    have hk : k < u.inputs.length := by rw [← h5]; exact (List.getElem?_eq_some_iff.1 hx).1
    have hu := List.getElem?_eq_getElem hk
    obtain ⟨ext, he⟩ := hp k _ sb hu hsb
    have := h6 k x hx
    rw [Nat.zero_add] at this
    obtain ⟨sb', pr, a1, a2, a3⟩ := (signTxInput_spec hu _).1 this
    rw [he, Outcome.ok.injEq, Prod.mk.injEq] at a1
    rw [← a1.1] at a2
    rw [a3]
    exact walletProof_size a2
  have hmap : t.inputs.map (fun i => i.proof.proof.toBytes.length) = sbs.map proofSize := by
    apply List.ext_getElem?
    intro k
    rw [List.getElem?_map, List.getElem?_map]
    by_cases hk : k < u.inputs.length
    · have e1 := List.getElem?_eq_getElem (show k < t.inputs.length by omega)
      have e2 := List.getElem?_eq_getElem (show k < sbs.length by omega)
      rw [e1, e2, Option.map_some, Option.map_some, hsize k _ _ e1 e2]
    · rw [List.getElem?_eq_none_iff.2 (by omega), List.getElem?_eq_none_iff.2 (by omega)]; rfl
  have hbound : ∀ i ∈ t.inputs, i.proof.proof.toBytes.length < 65536 := by
    intro i hi
    have : i.proof.proof.toBytes.length ∈ sbs.map proofSize := by rw [← hmap]; exact List.mem_map_of_mem hi
    obtain ⟨sb, hsb, e⟩ := List.mem_map.1 this
    rw [← e]; exact hs sb hsb
  obtain ⟨h7, _⟩ := unsigned_bytes_spec E hm
  rw [← hsg] at h7
  obtain ⟨b, g1, g2⟩ := serTx_size E _ _ _ _ hbound h7
  refine ⟨b, ?_, ?_⟩
  · rw [h4]; exact g1
  · rw [g2]
    have e1 : t.inputs.map (fun i => proofCost i.proof.proof.toBytes.length) =
        (t.inputs.map (fun i => i.proof.proof.toBytes.length)).map proofCost := by rw [List.map_map]; rfl
    rw [e1, hmap, List.map_map]
    rfl

end
end Verif
