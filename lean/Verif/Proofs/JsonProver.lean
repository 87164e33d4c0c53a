import Verif.Spec.JsonHint
import Verif.Proofs.SigmaTree

set_option linter.unusedSimpArgs false
set_option linter.unusedVariables false

/-!
# The prover does not use the commitments in the trees of proof hints
-/

namespace Verif.Sigma
open Verif Verif.Spec

section
variable {G : Type} {q : Nat}

mutual
/-- The tree with the commitments removed from its unchecked parts. -/
def clearP : ProofTree G q → ProofTree G q
  | .unchecked t => .unchecked (clearCommitments t)
  | .leaf p m r e s pos => .leaf p m r e s pos
  | .conj k i e s pos cs => .conj k i e s pos (clearPs cs)
/-- Child by child. -/
def clearPs : List (ProofTree G q) → List (ProofTree G q)
  | [] => []
  | c :: cs => clearP c :: clearPs cs
end

theorem clearPs_map : ∀ (cs : List (ProofTree G q)), clearPs cs = cs.map clearP
  | [] => rfl
  | c :: cs => by rw [clearPs, clearPs_map cs, List.map_cons]

/-- The outcome with the value changed. -/
def omap {α β : Type} (g : α → β) : Outcome α → Outcome β
  | .ok a => .ok (g a)
  | .err => .err
  | .panic => .panic

theorem clearP_withChallenge (e : Challenge) (t : ProofTree G q) : clearP (t.withChallenge e) = (clearP t).withChallenge e := by
  cases t with
  | unchecked u => cases u <;> rfl
  | leaf => rfl
  | conj => rfl

theorem clearP_challenge (t : ProofTree G q) : (clearP t).challenge = t.challenge := by
  cases t with
  | unchecked u => cases u <;> rfl
  | leaf => rfl
  | conj => rfl

theorem clearP_isReal (t : ProofTree G q) : (clearP t).isReal = t.isReal := by
  cases t <;> rfl

theorem step9Or_clear (e : Challenge) (cs : List (ProofTree G q)) :
    step9OrChildren e (clearPs cs) = clearPs (step9OrChildren e cs) := by
  unfold step9OrChildren
  rw [clearPs_map, clearPs_map, List.foldl_map, List.map_map, List.map_map]
  simp only [clearP_challenge]
  apply List.map_congr_left
  intro c _
  simp only [Function.comp_apply, clearP_isReal]
  split
  · rw [clearP_withChallenge]
  · rfl

theorem step9Points_clear : ∀ (cs : List (ProofTree G q)) (i : Nat), step9Points i (clearPs cs) = step9Points i cs
  | [], i => rfl
  | c :: cs, i => by
    rw [clearPs]
    cases c with
    | unchecked u =>
      cases u with
      | conj => rfl
      | leaf p m e z =>
        show (step9Points (i + 1) (clearPs cs) >>= _) = (step9Points (i + 1) cs >>= _)
        rw [step9Points_clear cs (i + 1)]
        rfl
    | leaf =>
      rw [clearP, step9Points, step9Points, step9Points_clear cs (i + 1)] <;> simp
    | conj =>
      rw [clearP, step9Points, step9Points, step9Points_clear cs (i + 1)]
      · rfl
      all_goals simp

theorem step9Thr_clear (poly : Gf.Poly) : ∀ (cs : List (ProofTree G q)) (i : Nat),
    step9ThrChildren poly i (clearPs cs) = omap clearPs (step9ThrChildren poly i cs)
  | [], i => rfl
  | c :: cs, i => by
    have h1 : step9ThrChild poly i (clearP c) = omap clearP (step9ThrChild poly i c) := by
      unfold step9ThrChild
      rw [clearP_isReal]
      split
      · cases poly.evaluate (BitVec.ofNat 8 (i + 1)) with
        | ok v => simp only [Outcome.bind_ok, Outcome.pure_eq, omap, clearP_withChallenge]
        | err => rfl
        | panic => rfl
      · rfl
    rw [clearPs, step9ThrChildren, step9ThrChildren, h1]
    cases step9ThrChild poly i c with
    | err => rfl
    | panic => rfl
    | ok c' =>
      simp only [omap, Outcome.bind_ok]
      rw [step9Thr_clear poly cs (i + 1)]
      cases step9ThrChildren poly (i + 1) cs <;> rfl

theorem rewriteTd_clear (f f' : ProofTree G q → Outcome (Option (ProofTree G q)))
    (hf : ∀ t, f' (clearP t) = omap (Option.map clearP) (f t)) : ∀ (n : Nat) (t : ProofTree G q),
    rewriteTd f' n (clearP t) = omap clearP (rewriteTd f n t)
  | 0, _ => rfl
  | n + 1, t => by
    have htry : ∀ cs : List (ProofTree G q), tryMap (rewriteTd f' n) (clearPs cs) = omap clearPs (tryMap (rewriteTd f n) cs) := by
      intro cs
      induction cs with
      | nil => rfl
      | cons c cs ih =>
        rw [clearPs, tryMap, tryMap, rewriteTd_clear f f' hf n c]
        cases rewriteTd f n c with
        | err => rfl
        | panic => rfl
        | ok c' =>
          simp only [omap, Outcome.bind_ok]
          rw [ih]
          cases tryMap (rewriteTd f n) cs <;> rfl
    rw [rewriteTd, rewriteTd, hf]
    cases f t with
    | err => rfl
    | panic => rfl
    | ok r =>
      simp only [omap, Outcome.bind_ok]
      have hg : (Option.map clearP r).getD (clearP t) = clearP (r.getD t) := by cases r <;> rfl
      rw [hg]
      cases r.getD t with
      | unchecked => rfl
      | leaf => rfl
      | conj k i e s pos cs =>
        simp only [clearP]
        rw [htry]
        cases tryMap (rewriteTd f n) cs <;> rfl

mutual
theorem convert_clear : ∀ (t : ProofTree G q), convertToUnchecked (clearP t) = omap clearCommitments (convertToUnchecked t)
  | .unchecked (.leaf _ _ _ _) => rfl
  | .unchecked (.conj _ _ _) => rfl
  | .leaf _ _ _ _ _ _ => rfl
  | .conj .and _ (some e) _ _ cs => by
    rw [clearP, convertToUnchecked, convertToUnchecked, convert_clears cs]
    cases convertToUncheckedList cs <;> rfl
  | .conj .or _ (some e) _ _ cs => by
    rw [clearP, convertToUnchecked, convertToUnchecked, convert_clears cs]
    cases convertToUncheckedList cs <;> rfl
  | .conj (.thr k poly) _ (some e) _ _ cs => by
    rw [clearP, convertToUnchecked, convertToUnchecked, convert_clears cs]
    cases convertToUncheckedList cs <;> cases poly <;> rfl
  | .conj .and _ none _ _ _ => rfl
  | .conj .or _ none _ _ _ => rfl
  | .conj (.thr _ _) _ none _ _ _ => rfl
theorem convert_clears : ∀ (cs : List (ProofTree G q)),
    convertToUncheckedList (clearPs cs) = omap clearCommitmentsList (convertToUncheckedList cs)
  | [] => rfl
  | c :: cs => by
    rw [clearPs, convertToUncheckedList, convertToUncheckedList, convert_clear c]
    cases convertToUnchecked c with
    | err => rfl
    | panic => rfl
    | ok u =>
      simp only [omap, Outcome.bind_ok]
      rw [convert_clears cs]
      cases convertToUncheckedList cs <;> rfl
end

theorem clearList_length : ∀ (cs : List (Unchecked G q)), (clearCommitmentsList cs).length = cs.length
  | [] => rfl
  | c :: cs => by rw [clearCommitmentsList, List.length_cons, List.length_cons, clearList_length cs]

mutual
theorem sigWrite_clear : ∀ (t : Unchecked G q) (wr : Bool), sigWrite (clearCommitments t) wr = sigWrite t wr
  | .leaf _ _ _ _, _ => rfl
  | .conj .and e cs, wr => by rw [clearCommitments, sigWrite, sigWrite, sigWriteAll_clear cs]
  | .conj .or e cs, wr => by rw [clearCommitments, sigWrite, sigWrite, sigWriteOr_clear cs]
  | .conj (.thr k poly) e cs, wr => by rw [clearCommitments, sigWrite, sigWrite, sigWriteAll_clear cs, clearList_length]
theorem sigWriteAll_clear : ∀ (cs : List (Unchecked G q)), sigWriteAll (clearCommitmentsList cs) = sigWriteAll cs
  | [] => rfl
  | c :: cs => by rw [clearCommitmentsList, sigWriteAll, sigWriteAll, sigWrite_clear c, sigWriteAll_clear cs]
theorem sigWriteOr_clear : ∀ (cs : List (Unchecked G q)), sigWriteOr (clearCommitmentsList cs) = sigWriteOr cs
  | [] => rfl
  | [c] => by
    rw [clearCommitmentsList, clearCommitmentsList, sigWriteOr, sigWriteOr, sigWrite_clear c]
  | c :: d :: cs => by
    have := sigWriteOr_clear (d :: cs)
    show (sigWrite (clearCommitments c) true >>= fun b => sigWriteOr (clearCommitmentsList (d :: cs)) >>= fun bs => pure (b ++ bs)) =
      (sigWrite c true >>= fun b => sigWriteOr (d :: cs) >>= fun bs => pure (b ++ bs))
    rw [sigWrite_clear c, this]
end

mutual
theorem clear_clear : ∀ (t : Unchecked G q), clearCommitments (clearCommitments t) = clearCommitments t
  | .leaf _ _ _ _ => rfl
  | .conj k e cs => by rw [clearCommitments, clearCommitments, clear_clears cs]
theorem clear_clears : ∀ (cs : List (Unchecked G q)), clearCommitmentsList (clearCommitmentsList cs) = clearCommitmentsList cs
  | [] => rfl
  | c :: cs => by rw [clearCommitmentsList, clearCommitmentsList, clear_clear c, clear_clears cs]
end

theorem forget_forget (h : Hint G q) : forgetHint (forgetHint h) = forgetHint h := by
  cases h <;> simp [forgetHint, clear_clear]

/-! ## What the prover takes from the hints -/

theorem hints_commitments (hs : List (Hint G q)) : hintCommitments (hs.map forgetHint) = hintCommitments hs := by
  unfold hintCommitments
  rw [List.filterMap_map]
  congr 1; funext h; cases h <;> rfl

theorem hints_own (hs : List (Hint G q)) : hintOwn (hs.map forgetHint) = hintOwn hs := by
  unfold hintOwn
  rw [List.filterMap_map]
  congr 1; funext h; cases h <;> rfl

theorem hints_proofs (hs : List (Hint G q)) : hintProofs (hs.map forgetHint) = hintProofs hs := by
  unfold hintProofs
  rw [List.filterMap_map]
  congr 1; funext h; cases h <;> rfl

theorem hints_realImages (hs : List (Hint G q)) : hintRealImages (hs.map forgetHint) = hintRealImages hs := by
  unfold hintRealImages
  rw [List.filterMap_map, List.filterMap_map]
  congr 1 <;> (congr 1; funext h; cases h <;> rfl)

theorem hints_realProofs : ∀ (hs : List (Hint G q)),
    hintRealProofs (hs.map forgetHint) = (hintRealProofs hs).map fun x => (x.1, clearCommitments x.2)
  | [] => rfl
  | h :: hs => by
    have := hints_realProofs hs
    unfold hintRealProofs at this ⊢
    cases h <;> simp [forgetHint, this]

theorem hints_simulatedProofs : ∀ (hs : List (Hint G q)),
    hintSimulatedProofs (hs.map forgetHint) = (hintSimulatedProofs hs).map fun x => (x.1, clearCommitments x.2)
  | [] => rfl
  | h :: hs => by
    have := hints_simulatedProofs hs
    unfold hintSimulatedProofs at this ⊢
    cases h <;> simp [forgetHint, this]

theorem findPos_clear (l : List (Position × Unchecked G q)) (pos : Position) :
    findPos (l.map fun x => (x.1, clearCommitments x.2)) pos = (findPos l pos).map clearCommitments := by
  unfold findPos
  rw [List.find?_map]
  cases h : l.find? ((fun x => decide (x.1 = pos)) ∘ fun x => (x.1, clearCommitments x.2)) with
  | none =>
    have h' : l.find? (fun x => decide (x.1 = pos)) = none := h
    rw [h']; rfl
  | some x =>
    have h' : l.find? (fun x => decide (x.1 = pos)) = some x := h
    rw [h']; rfl

section
variable [DecidableEq G] [AddCommGroup G] [Module (ZMod q) G]

/-- The prover with the hints without commitments. -/
def forgetEnv (E : ProverEnv G q) : ProverEnv G q := { E with hints := E.hints.map forgetHint }

theorem forgetEnv_forget (E : ProverEnv G q) : forgetEnv (forgetEnv E) = forgetEnv E := by
  unfold forgetEnv
  simp [forget_forget]

theorem step9Response_forget (E : ProverEnv G q) (p : LeafProp G) (r : Option (ZMod q)) (e : Challenge) (pos : Position) :
    step9Response (forgetEnv E) p r e pos = step9Response E p r e pos := by
  have ho : ∀ w, step9Own (forgetEnv E) w r e pos = step9Own E w r e pos := by
    intro w
    unfold step9Own
    show (match findPos (hintOwn (E.hints.map forgetHint)) pos, r with
      | some r, _ => _ | none, some r => _ | none, none => _) = _
    rw [hints_own]
    cases findPos (hintOwn E.hints) pos <;> cases r <;> rfl
  unfold step9Response
  simp only [ho]
  show (match E.secrets.find? (fun s => decide (s.image E.curve = p)), p with
    | some (.dlog w), .dlog _ => step9Own E w r e pos
    | some (.dht w _ _ _ _), .dht _ _ _ _ => step9Own E w r e pos
    | some _, _ => .err
    | none, p =>
      match findPos (hintRealProofs (E.hints.map forgetHint)) pos, p with
      | some (.leaf (.dlog _) _ _ z), .dlog _ => .ok z
      | some (.leaf (.dht _ _ _ _) _ _ z), .dht _ _ _ _ => .ok z
      | some _, _ => .err
      | none, _ => .ok (E.rnd.fallbackZ pos)) = _
  rw [hints_realProofs, findPos_clear]
  cases E.secrets.find? (fun s => decide (s.image E.curve = p)) with
  | some s => cases s <;> cases p <;> rfl
  | none =>
    cases findPos (hintRealProofs E.hints) pos with
    | none => rfl
    | some u =>
      cases u with
      | conj k e cs => cases p <;> rfl
      | leaf p' m e z => cases p' <;> cases p <;> rfl

theorem provingStep_forget (E : ProverEnv G q) (t : ProofTree G q) :
    provingStep (forgetEnv E) (clearP t) = omap (Option.map clearP) (provingStep E t) := by
  cases t with
  | unchecked u => cases u <;> rfl
  | leaf p m r e s pos =>
    rw [clearP, provingStep, provingStep]
    split
    · unfold step9Leaf
      cases e with
      | none => rfl
      | some e =>
        simp only [step9Response_forget]
        cases step9Response E p r e pos <;> rfl
    · show (match (hintSimulatedProofs (E.hints.map forgetHint)).find? (fun x => x.1.beq p.toSB) with
        | some x => _ | none => _) = _
      rw [hints_simulatedProofs, List.find?_map]
      have hcomp : ((fun x : SigmaBoolean G × Unchecked G q => x.1.beq p.toSB) ∘
        fun x : SigmaBoolean G × Unchecked G q => (x.1, clearCommitments x.2)) = fun x => x.1.beq p.toSB := rfl
      rw [hcomp]
      cases (hintSimulatedProofs E.hints).find? (fun x => x.1.beq p.toSB) <;> rfl
  | conj k i e s pos cs =>
    cases k with
    | and =>
      simp only [clearP, provingStep]
      split
      · rfl
      · cases e with
        | none => rfl
        | some e =>
          simp only [omap, Option.map_some, clearP, clearPs_map, List.map_map]
          congr 3
          apply List.map_congr_left
          intro c _
          exact (clearP_withChallenge e c).symm
    | or =>
      simp only [clearP, provingStep]
      split
      · rfl
      · cases e with
        | none => rfl
        | some e => simp only [omap, Option.map_some, clearP, step9Or_clear]
    | thr k poly =>
      simp only [clearP, provingStep]
      split
      · rfl
      · cases e with
        | none => rfl
        | some e =>
          simp only [step9Points_clear]
          cases step9Points 0 cs with
          | err => rfl
          | panic => rfl
          | ok pv =>
            simp only [Outcome.bind_ok]
            cases Gf.interpolate pv.1 pv.2 e.toGf with
            | err => rfl
            | panic => rfl
            | ok poly' =>
              simp only [Outcome.bind_ok]
              rw [step9Thr_clear]
              cases step9ThrChildren poly' 0 cs with
              | err => rfl
              | panic => rfl
              | ok cs' =>
                simp only [Outcome.bind_ok, omap]
                cases withPolynomial k i poly' <;> rfl

theorem proving_forget (E : ProverEnv G q) (n : Nat) (t : ProofTree G q) :
    omap clearP (proving (forgetEnv E) n t) = omap clearP (proving E n t) := by
  unfold proving
  rw [← rewriteTd_clear _ _ (provingStep_forget E) n t]
  have := rewriteTd_clear _ _ (provingStep_forget (forgetEnv E)) n t
  rw [forgetEnv_forget] at this
  rw [← this]

theorem markStep_forget (E : ProverEnv G q) : markStep (forgetEnv E) = markStep E := by
  funext t
  cases t with
  | unchecked => rfl
  | leaf p m r e s pos =>
    rw [markStep, markStep]
    show Outcome.ok (some ((ProofTree.leaf p m r e s pos).withSimulated (!((hintRealImages (E.hints.map forgetHint)).any _ || _)))) = _
    rw [hints_realImages]
    rfl
  | conj k i e s pos cs => cases k <;> rfl

theorem commitStep_forget (E : ProverEnv G q) : commitStep (forgetEnv E) = commitStep E := by
  have h4 : ∀ cs, step4RealChildren (forgetEnv E) cs = step4RealChildren E cs := by
    intro cs
    unfold step4RealChildren
    show (castToUnp cs >>= fun us => pure (us.map fun c => if c.isReal then c
      else c.withChallenge ((findPos (hintProofs (E.hints.map forgetHint)) c.position).getD (E.rnd.challenge c.position)))) = _
    rw [hints_proofs]
  funext t
  cases t with
  | unchecked => rfl
  | leaf p m r e s pos =>
    rw [commitStep, commitStep]
    unfold step5
    show (match findPos (hintCommitments (E.hints.map forgetHint)) pos with
      | some m => _
      | none => _) = _
    rw [hints_commitments]
    rfl
  | conj k i e s pos cs =>
    cases k with
    | and => rfl
    | or =>
      simp only [commitStep, h4]
      rfl
    | thr k poly =>
      simp only [commitStep, h4]
      rfl

theorem proveToUnchecked_forget (E : ProverEnv G q) (n : Nat) (t : ProofTree G q) (message : Bytes) :
    omap clearCommitments (proveToUnchecked (forgetEnv E) n t message) = omap clearCommitments (proveToUnchecked E n t message) := by
  unfold proveToUnchecked markReal simulateAndCommit
  rw [markStep_forget, commitStep_forget]
  cases (rewriteBu (markStep E) t >>= expectUnproven) with
  | err => rfl
  | panic => rfl
  | ok s1 =>
    simp only [Outcome.bind_ok]
    split
    · rfl
    · cases polishSimulated n s1 with
      | err => rfl
      | panic => rfl
      | ok s3 =>
        simp only [Outcome.bind_ok]
        cases (rewriteTd (commitStep E) n s3 >>= expectUnproven) with
        | err => rfl
        | panic => rfl
        | ok s6 =>
          simp only [Outcome.bind_ok]
          show omap clearCommitments (fsProof E.curve.codec s6 >>= fun s => proving (forgetEnv E) n
            (s6.withChallenge (fsHash E.curve.hash (s ++ message))) >>= fun t => convertToUnchecked t) = _
          cases fsProof E.curve.codec s6 with
          | err => rfl
          | panic => rfl
          | ok s =>
            simp only [Outcome.bind_ok]
            have := proving_forget E n (s6.withChallenge (fsHash E.curve.hash (s ++ message)))
            revert this
            cases proving (forgetEnv E) n (s6.withChallenge (fsHash E.curve.hash (s ++ message))) with
            | err =>
              cases proving E n (s6.withChallenge (fsHash E.curve.hash (s ++ message))) <;> simp [omap]
            | panic =>
              cases proving E n (s6.withChallenge (fsHash E.curve.hash (s ++ message))) <;> simp [omap]
            | ok a =>
              cases proving E n (s6.withChallenge (fsHash E.curve.hash (s ++ message))) with
              | err => simp [omap]
              | panic => simp [omap]
              | ok b =>
                intro h
                simp only [omap, Outcome.ok.injEq] at h
                simp only [Outcome.bind_ok]
                rw [← convert_clear, h, convert_clear]

theorem generateProof_forget (E : ProverEnv G q) (sb : SigmaBoolean G) (message : Bytes) :
    generateProof (forgetEnv E) sb message = generateProof E sb message := by
  have key : ∀ (n : Nat) (t : ProofTree G q), (proveToUnchecked (forgetEnv E) n t message >>= fun t => serializeSig t) =
      (proveToUnchecked E n t message >>= fun t => serializeSig t) := by
    intro n t
    have := proveToUnchecked_forget E n t message
    revert this
    cases proveToUnchecked (forgetEnv E) n t message <;> cases proveToUnchecked E n t message <;> simp only [omap] <;> intro h <;>
      simp at h ⊢
    unfold serializeSig
    rw [← sigWrite_clear, h, sigWrite_clear]
  have key2 : ∀ sb : SigmaBoolean G, (convertToUnproven (q := q) sb >>= fun tree =>
      proveToUnchecked (forgetEnv E) (sbDepth sb) tree message >>= fun t => serializeSig t) = (convertToUnproven (q := q) sb >>= fun tree =>
      proveToUnchecked E (sbDepth sb) tree message >>= fun t => serializeSig t) := by
    intro sb
    cases convertToUnproven (q := q) sb with
    | err => rfl
    | panic => rfl
    | ok t => exact key _ t
  cases sb with
  | trivial b => cases b <;> rfl
  | _ => exact key2 _

end
end
end Verif.Sigma
