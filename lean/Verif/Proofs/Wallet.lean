import Verif.Model.Wallet
import Verif.Proofs.Signing

set_option linter.unusedSimpArgs false
set_option linter.unusedVariables false

/-!
# Lemmas on the wallet
-/

namespace Verif
open Verif.Sigma Verif.Spec

section
variable {G : Type} {q : Nat} [DecidableEq G] [AddCommGroup G] [Module (ZMod q) G]

/-- The secrets of the discrete logarithm kind. -/
def isDlogSecret : Secret G q → Bool
  | .dlog _ => true
  | .dht _ _ _ _ _ => false

omit [Module (ZMod q) G] [DecidableEq G] [AddCommGroup G] in
theorem find_filter_imp {α : Type} (p r : α → Bool) (h : ∀ a, p a = true → r a = true) :
    ∀ (l : List α), (l.filter r).find? p = l.find? p
  | [] => rfl
  | a :: l => by
    rw [List.filter_cons]
    split
    · rw [List.find?_cons, List.find?_cons, find_filter_imp p r h l]
    · rename_i hr
      have : p a = false := by
        cases hp : p a
        · rfl
        · exact absurd (h a hp) hr
      rw [List.find?_cons, this, find_filter_imp p r h l]

theorem any_eq_find {α : Type} (p : α → Bool) (l : List α) : l.any p = (l.find? p).isSome := by
  induction l with
  | nil => rfl
  | cons a l ih =>
    rw [List.any_cons, List.find?_cons, ih]
    cases p a <;> simp

/-- The prover on one key, in closed form. -/
theorem generateProof_key (E : ProverEnv G q) (hh : E.hints = []) (h : G) (m : Bytes) :
    generateProof E (.dlog h) m =
      if E.secrets.any (fun s => decide (s.image E.curve = .dlog h)) then
        fsLeaf E.curve.codec (.dlog h) (some (firstMessage E.curve (.dlog h) (E.rnd.realR cryptoTreePrefix))) >>= fun s =>
          step9Response E (.dlog h) (some (E.rnd.realR cryptoTreePrefix)) (fsHash E.curve.hash (s ++ m)) cryptoTreePrefix >>=
            fun z => serializeSig (.leaf (.dlog h) none (fsHash E.curve.hash (s ++ m)) z)
      else .err := by
  obtain ⟨C, ss, hints, rnd⟩ := E
  dsimp only at hh ⊢
  subst hh
  have hm : markReal ⟨C, ss, [], rnd⟩ (.leaf (.dlog h) none none none false cryptoTreePrefix) =
      .ok (.leaf (.dlog h) none none none (!ss.any (fun s => decide (s.image C = .dlog h))) cryptoTreePrefix) := by
    simp only [markReal, rewriteBu, markStep, Outcome.bind_ok, hintRealImages, List.filterMap_nil, List.append_nil, List.any_nil,
      Bool.false_or, Outcome.pure_eq, Option.getD_some, ProofTree.withSimulated, expectUnproven, ProofTree.isUnproven, if_true]
  have hg : generateProof ⟨C, ss, [], rnd⟩ (.dlog h) m = (proveToUnchecked ⟨C, ss, [], rnd⟩ 1
      (.leaf (.dlog h) none none none false cryptoTreePrefix) m >>= fun t => serializeSig t) := rfl
  rw [hg]
  unfold proveToUnchecked
  rw [hm, Outcome.bind_ok]
  cases ss.any (fun s => decide (s.image C = .dlog h)) with
  | false => rfl
  | true =>
    have hp : polishSimulated (G := G) (q := q) 1 (.leaf (.dlog h) none none none (!true) cryptoTreePrefix) =
        .ok (.leaf (.dlog h) none none none false cryptoTreePrefix) := rfl
    have hc : simulateAndCommit ⟨C, ss, [], rnd⟩ 1 (.leaf (.dlog h) none none none false cryptoTreePrefix) =
        .ok (.leaf (.dlog h) (some (firstMessage C (.dlog h) (rnd.realR cryptoTreePrefix))) (some (rnd.realR cryptoTreePrefix)) none
          false cryptoTreePrefix) := rfl
    rw [if_pos rfl, if_neg (by simp [ProofTree.isReal, ProofTree.simulated]), hp, Outcome.bind_ok, hc, Outcome.bind_ok]
    cases hs : fsLeaf C.codec (.dlog h) (some (firstMessage C (.dlog h) (rnd.realR cryptoTreePrefix))) with
    | err => rw [fsProof, hs]; rfl
    | panic => rw [fsProof, hs]; rfl
    | ok s =>
      rw [fsProof, hs, Outcome.bind_ok, Outcome.bind_ok]
      have hv : ∀ e, proving ⟨C, ss, [], rnd⟩ 1 ((ProofTree.leaf (.dlog h)
          (some (firstMessage C (.dlog h) (rnd.realR cryptoTreePrefix))) (some (rnd.realR cryptoTreePrefix)) none
          false cryptoTreePrefix).withChallenge e) =
          (step9Response ⟨C, ss, [], rnd⟩ (.dlog h) (some (rnd.realR cryptoTreePrefix)) e cryptoTreePrefix >>= fun z =>
            Outcome.ok (.unchecked (.leaf (.dlog h) none e z))) := by
        intro e
        rw [proving, rewriteTd, ProofTree.withChallenge, provingStep, if_pos (show (!false) = true from rfl), step9Leaf]
        cases step9Response ⟨C, ss, [], rnd⟩ (.dlog h) (some (rnd.realR cryptoTreePrefix)) e cryptoTreePrefix <;> rfl
      dsimp only
      rw [hv]
      cases step9Response ⟨C, ss, [], rnd⟩ (.dlog h) (some (rnd.realR cryptoTreePrefix)) (fsHash C.hash (s ++ m))
        cryptoTreePrefix <;> rfl

/-- For one key only the secrets of this kind matter. -/
theorem generateProof_dlog (E : ProverEnv G q) (hh : E.hints = []) (h : G) (m : Bytes) :
    generateProof E (.dlog h) m =
      generateProof { E with secrets := E.secrets.filter isDlogSecret } (.dlog h) m := by
  have hfind : (E.secrets.filter isDlogSecret).find? (fun s => decide (s.image E.curve = .dlog h)) =
      E.secrets.find? (fun s => decide (s.image E.curve = .dlog h)) := by
    apply find_filter_imp
    intro s hs
    cases s with
    | dlog w => rfl
    | dht w g h u v => simp [Secret.image] at hs
  rw [generateProof_key E hh, generateProof_key { E with secrets := E.secrets.filter isDlogSecret } hh]
  dsimp only
  rw [any_eq_find, any_eq_find, hfind]
  unfold step9Response
  dsimp only
  rw [hfind]
  rfl

/-- A key of the wallet signs every message. -/
theorem key_signs [NeZero q] (hq : q ≤ 2 ^ 256) (E : ProverEnv G q) (hh : E.hints = []) (hone : E.curve.codec.one = 0) (w : ZMod q)
    (hw : .dlog w ∈ E.secrets) (m : Bytes) :
    ∃ sig, generateProof E (.dlog (w • E.curve.gen)) m = .ok sig ∧
      verifySignature q E.curve (.dlog (w • E.curve.gen)) m sig = .ok true := by
  rw [generateProof_dlog E hh]
  refine C21_accepted_partial hq { E with secrets := E.secrets.filter isDlogSecret } hh hone ?_ _ ?_ ?_ ?_ ?_ ?_ m
  · intro s hs
    have := (List.mem_filter.1 hs).2
    cases s with
    | dlog w => trivial
    | dht => cases this
  · simp [NoTrivial]
  · simp [SigmaBoolean.Bounded]
  · simp [ThrOk]
  · simp [OrDistinct]
  · simp only [holds, provableWith, List.any_eq_true]
    exact ⟨.dlog w, List.mem_filter.2 ⟨hw, rfl⟩, by simp⟩

/-- More secrets prove more. -/
theorem provableWith_mono (gen : G) (ss ts : List (Secret G q)) :
    (∀ x, (provableWith gen ss).dlog x = true → (provableWith gen (ss ++ ts)).dlog x = true) ∧
    ∀ g h u v, (provableWith gen ss).dht g h u v = true → (provableWith gen (ss ++ ts)).dht g h u v = true := by
  constructor
  · intro x h
    simp only [provableWith, List.any_append, Bool.or_eq_true] at h ⊢
    exact .inl h
  · intro a b c d h
    simp only [provableWith, List.any_append, Bool.or_eq_true] at h ⊢
    exact .inl h

omit [Module (ZMod q) G] [DecidableEq G] [AddCommGroup G] in
theorem holdsCount_le_length (σ : Assignment G) : ∀ (l : List (SigmaBoolean G)), holdsCount σ l ≤ l.length
  | [] => by simp [holdsCount]
  | a :: l => by
    have := holdsCount_le_length σ l
    rw [holdsCount, List.length_cons]
    split <;> omega

section
omit [Module (ZMod q) G] [DecidableEq G] [AddCommGroup G]
mutual
theorem holds_mono' (σ τ : Assignment G) (h1 : ∀ x, σ.dlog x = true → τ.dlog x = true)
    (h2 : ∀ g h u v, σ.dht g h u v = true → τ.dht g h u v = true) :
    ∀ (sb : SigmaBoolean G), holds σ sb = true → holds τ sb = true
  | .trivial b, h => by rw [holds] at h ⊢; exact h
  | .dlog x, h => by rw [holds] at h ⊢; exact h1 _ h
  | .dht a b c d, h => by rw [holds] at h ⊢; exact h2 _ _ _ _ h
  | .cand l, h => by
    rw [holds, beq_iff_eq] at h ⊢
    have a1 := holdsCount_mono' σ τ h1 h2 l
    have a2 := holdsCount_le_length τ l
    omega
  | .cor l, h => by
    rw [holds, bne_iff_ne] at h ⊢
    have a1 := holdsCount_mono' σ τ h1 h2 l
    omega
  | .cth k l, h => by
    rw [holds, decide_eq_true_eq] at h ⊢
    have a1 := holdsCount_mono' σ τ h1 h2 l
    omega
theorem holdsCount_mono' (σ τ : Assignment G) (h1 : ∀ x, σ.dlog x = true → τ.dlog x = true)
    (h2 : ∀ g h u v, σ.dht g h u v = true → τ.dht g h u v = true) :
    ∀ (l : List (SigmaBoolean G)), holdsCount σ l ≤ holdsCount τ l
  | [] => by simp [holdsCount]
  | a :: l => by
    have a1 := holdsCount_mono' σ τ h1 h2 l
    have a2 := holds_mono' σ τ h1 h2 a
    rw [holdsCount, holdsCount]
    cases ha : holds σ a
    · simp only [Bool.false_eq_true, if_false]; omega
    · rw [a2 ha]; simp only [if_true]; omega
end
end

/-- The secrets of a wallet after some have been added. -/
theorem addSecrets_eq (ts : List (Secret G q)) : ∀ (P : WalletP G q),
    ts.foldl WalletP.addSecret P = { P with secrets := P.secrets ++ ts } := by
  induction ts with
  | nil => intro P; simp
  | cons t ts ih => intro P; rw [List.foldl_cons, ih]; simp [WalletP.addSecret]

/-- A signature accepted for two messages. -/
theorem accepted_twice (C : Curve G) (sb : SigmaBoolean G) (hnt : nontrivial sb) (m m' sig : Bytes)
    (h : verifySignature q C sb m sig = .ok true) (h' : verifySignature q C sb m' sig = .ok true) :
    ∃ s, fsHash C.hash (s ++ m) = fsHash C.hash (s ++ m') := by
  rw [verify_nontrivial C sb hnt] at h h'
  split at h
  · cases h
  · rename_i hne
    rw [if_neg hne] at h'
    obtain ⟨t, h1, h2⟩ := Outcome.bind_eq_ok.1 h
    obtain ⟨t', h1', h2'⟩ := Outcome.bind_eq_ok.1 h'
    rw [h1, Outcome.ok.injEq] at h1'
    subst h1'
    unfold checkCommitments at h2 h2'
    obtain ⟨s, h3, h4⟩ := Outcome.bind_eq_ok.1 h2
    obtain ⟨s', h3', h4'⟩ := Outcome.bind_eq_ok.1 h2'
    rw [h3, Outcome.ok.injEq] at h3'
    subst h3'
    simp only [Outcome.pure_eq, Outcome.ok.injEq, decide_eq_true_eq] at h4 h4'
    exact ⟨s, by rw [← h4, ← h4']⟩

end
end Verif
