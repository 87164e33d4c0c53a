import Verif.Proofs.ProverCommit

set_option linter.unusedSimpArgs false
set_option linter.unusedVariables false

/-! Prover step 9 and the completeness of the prover. -/

namespace Verif.Sigma
open Verif Verif.Spec

section
variable {G : Type} [DecidableEq G] {q : Nat} [AddCommGroup G] [Module (ZMod q) G]
variable (C : Curve G) (σ : Assignment G)

/-- Children all of which have a challenge. -/
def Ready : List (SigmaBoolean G) → List Challenge → List (ProofTree G q) → Prop
  | [], [], [] => True
  | a :: as, e :: es, t :: ts => (∃ s, Com C σ a s (some e) t) ∧ Ready as es ts
  | _, _, _ => False

theorem com_withChallenge (a : SigmaBoolean G) (ch : Option Challenge) (t : ProofTree G q) (e : Challenge)
    (h : Com C σ a false ch t) : Com C σ a false (some e) (t.withChallenge e) := by
  cases a with
  | trivial b => exact h.elim
  | dlog g => obtain ⟨h1, pos, r, rfl⟩ := h; exact ⟨h1, pos, r, rfl⟩
  | dht g x u v => obtain ⟨h1, pos, r, rfl⟩ := h; exact ⟨h1, pos, r, rfl⟩
  | cand items => obtain ⟨pos, cs, es, rfl, h, h2, h3⟩ := h; exact ⟨pos, cs, es, rfl, h, by simp, h3⟩
  | cor items => obtain ⟨pos, cs, es, rfl, h, h2, h3⟩ := h; exact ⟨pos, cs, es, rfl, h, by simp, h3⟩
  | cth k items => obtain ⟨pos, cs, es, poly, rfl, h, h2, h3⟩ := h; exact ⟨pos, cs, es, poly, rfl, h, by simp, h3⟩

theorem comLeaf_facts (p : LeafProp G) (s : Bool) (ch : Option Challenge) (t : ProofTree G q) (h : ComLeaf C σ p s ch t) :
    t.isReal = !s ∧ t.challenge = ch ∧ ∀ k e cs, t ≠ .unchecked (.conj k e cs) := by
  cases s with
  | true => obtain ⟨e, z, rfl, rfl⟩ := h; exact ⟨rfl, rfl, by simp⟩
  | false => obtain ⟨_, pos, r, rfl⟩ := h; exact ⟨rfl, rfl, by simp⟩

theorem com_facts (a : SigmaBoolean G) (s : Bool) (ch : Option Challenge) (t : ProofTree G q) (h : Com C σ a s ch t) :
    t.isReal = !s ∧ t.challenge = ch ∧ ∀ k e cs, t ≠ .unchecked (.conj k e cs) := by
  cases a with
  | trivial b => exact h.elim
  | dlog g => exact comLeaf_facts C σ _ s ch t h
  | dht g x u v => exact comLeaf_facts C σ _ s ch t h
  | cand items => obtain ⟨pos, cs, es, rfl, h, h2, h3⟩ := h; exact ⟨rfl, rfl, by simp⟩
  | cor items => obtain ⟨pos, cs, es, rfl, h, h2, h3⟩ := h; exact ⟨rfl, rfl, by simp⟩
  | cth k items => obtain ⟨pos, cs, es, poly, rfl, h, h2, h3⟩ := h; exact ⟨rfl, rfl, by simp⟩

theorem comList_length : ∀ (as : List (SigmaBoolean G)) (es : List (Option Challenge)) (ts : List (ProofTree G q)),
    ComList C σ as es ts → es.length = as.length ∧ ts.length = as.length
  | [], [], [], _ => ⟨rfl, rfl⟩
  | a :: as, f :: fs, t :: ts, h => by
    have := comList_length as fs ts h.2
    simp [this]
  | [], [], _ :: _, h => h.elim
  | [], _ :: _, _, h => h.elim
  | _ :: _, [], _, h => h.elim
  | _ :: _, _ :: _, [], h => h.elim

omit [AddCommGroup G] [Module (ZMod q) G] in
theorem fs_withChallenge (pc : PointCodec G) (t : ProofTree G q) (e : Challenge) :
    fsProof pc (t.withChallenge e) = fsProof pc t := by
  cases t with
  | unchecked u => cases u <;> rfl
  | leaf p m r e s pos => rfl
  | conj k i e s pos cs => rfl

/-! #### Children with all challenges -/

theorem ready_sim : ∀ (as : List (SigmaBoolean G)) (es : List Challenge) (ts : List (ProofTree G q)),
    ComList C σ as (es.map some) ts → Ready C σ as es ts
  | [], [], [], _ => trivial
  | a :: as, e :: es, t :: ts, h => ⟨⟨_, h.1⟩, ready_sim as es ts h.2⟩
  | [], [], _ :: _, h => h.elim
  | [], _ :: _, _, h => h.elim
  | _ :: _, [], _, h => h.elim
  | _ :: _, _ :: _, [], h => h.elim

theorem ready_and (e : Challenge) : ∀ (as : List (SigmaBoolean G)) (ts : List (ProofTree G q)),
    ComList C σ as (as.map fun _ => none) ts → Ready C σ as (as.map fun _ => e) (ts.map (ProofTree.withChallenge e)) ∧
      ∀ pc, fsProofList pc (ts.map (ProofTree.withChallenge e)) = fsProofList pc ts
  | [], [], _ => ⟨trivial, fun _ => rfl⟩
  | a :: as, t :: ts, h => by
    obtain ⟨h1, h2⟩ := ready_and e as ts h.2
    refine ⟨⟨⟨false, com_withChallenge C σ a none t e h.1⟩, h1⟩, fun pc => ?_⟩
    rw [List.map_cons, fsProofList, fsProofList, fs_withChallenge, h2]
  | [], _ :: _, h => h.elim
  | _ :: _, [], h => h.elim

theorem ready_or (e : Challenge) : ∀ (as : List (SigmaBoolean G)) (es : List (Option Challenge)) (ts : List (ProofTree G q)),
    ComList C σ as es ts →
    Ready C σ as (es.map fun o => o.getD e) (ts.map fun c => if c.isReal then c.withChallenge e else c) ∧
      ∀ pc, fsProofList pc (ts.map fun c => if c.isReal then c.withChallenge e else c) = fsProofList pc ts
  | [], [], [], _ => ⟨trivial, fun _ => rfl⟩
  | a :: as, o :: es, t :: ts, h => by
    obtain ⟨h1, h2⟩ := ready_or e as es ts h.2
    have hr := (com_facts C σ _ _ _ _ h.1).1
    cases o with
    | none =>
      simp only [List.map_cons, hr]
      refine ⟨⟨⟨false, com_withChallenge C σ a none t e h.1⟩, h1⟩, fun pc => ?_⟩
      simp only [Option.isSome_none, Bool.not_false, if_true]
      rw [fsProofList, fsProofList, fs_withChallenge, h2]
    | some e' =>
      simp only [List.map_cons, hr]
      refine ⟨⟨⟨true, h.1⟩, h1⟩, fun pc => ?_⟩
      simp only [Option.isSome_some, Bool.not_true, Bool.false_eq_true, if_false]
      rw [fsProofList, fsProofList, h2]
  | [], [], _ :: _, h => h.elim
  | [], _ :: _, _, h => h.elim
  | _ :: _, [], _, h => h.elim
  | _ :: _, _ :: _, [], h => h.elim

omit [DecidableEq G] [AddCommGroup G] [Module (ZMod q) G] in
theorem fm_some (e : Challenge) (es : List (Option Challenge)) : (some e :: es).filterMap id = e :: es.filterMap id := rfl

theorem foldl_or : ∀ (as : List (SigmaBoolean G)) (es : List (Option Challenge)) (ts : List (ProofTree G q)) (acc : Challenge),
    ComList C σ as es ts →
    ts.foldl (fun acc c => match c.challenge with | some ec => acc.xor ec | none => acc) acc = acc.xor (xorAll (es.filterMap id))
  | [], [], [], acc, _ => (xor_zero acc).symm
  | a :: as, o :: es, t :: ts, acc, h => by
    have hc := (com_facts C σ _ _ _ _ h.1).2.1
    rw [List.foldl_cons, foldl_or as es ts _ h.2, hc]
    cases o with
    | none => rfl
    | some e => rw [fm_some, xorAll, xor_assoc]
  | [], [], _ :: _, _, h => h.elim
  | [], _ :: _, _, _, h => h.elim
  | _ :: _, [], _, _, h => h.elim
  | _ :: _, _ :: _, [], _, h => h.elim

theorem xorAll_fill0 (x : Challenge) : ∀ (es : List (Option Challenge)), es.count none = 0 →
    xorAll (es.map fun o => o.getD x) = xorAll (es.filterMap id)
  | [], _ => rfl
  | none :: es, h => by simp at h
  | some e :: es, h => by
    rw [fm_some, xorAll, ← xorAll_fill0 x es (by simpa using h)]; rfl

theorem xorAll_fill (x : Challenge) : ∀ (es : List (Option Challenge)), es.count none = 1 →
    xorAll (es.map fun o => o.getD x) = x.xor (xorAll (es.filterMap id))
  | [], h => by simp at h
  | none :: es, h => by
    rw [List.map_cons, xorAll, xorAll_fill0 x es (by simpa using h)]; rfl
  | some e :: es, h => by
    rw [fm_some, List.map_cons, xorAll, xorAll_fill x es (by simpa using h), xorAll]
    rw [Option.getD_some, ← xor_assoc, xor_comm e x, xor_assoc]

/-! #### Threshold -/

/-- Points and values of the children that have a challenge. -/
def pv : Nat → List (Option Challenge) → List Byte × List Gf.Gf
  | _, [] => ([], [])
  | i, none :: es => pv (i + 1) es
  | i, some e :: es => (BitVec.ofNat 8 (i + 1) :: (pv (i + 1) es).1, e.toGf :: (pv (i + 1) es).2)

theorem step9Points_ok : ∀ (as : List (SigmaBoolean G)) (es : List (Option Challenge)) (ts : List (ProofTree G q)) (i : Nat),
    ComList C σ as es ts → step9Points i ts = .ok (pv i es)
  | [], [], [], i, _ => rfl
  | a :: as, o :: es, t :: ts, i, h => by
    obtain ⟨_, hc, hu⟩ := com_facts C σ _ _ _ _ h.1
    rw [step9Points, step9Points_ok as es ts (i + 1) h.2, Outcome.bind_ok]
    · simp only [hc]
      cases o <;> rfl
    · intro k e cs ht
      exact hu k e cs ht
  | [], [], _ :: _, _, h => h.elim
  | [], _ :: _, _, _, h => h.elim
  | _ :: _, [], _, _, h => h.elim
  | _ :: _, _ :: _, [], _, h => h.elim

theorem pv_length : ∀ (es : List (Option Challenge)) (i : Nat), (pv i es).1.length = (pv i es).2.length ∧
    (pv i es).1.length = es.length - es.count none
  | [], i => ⟨rfl, rfl⟩
  | none :: es, i => by
    obtain ⟨h1, h2⟩ := pv_length es (i + 1)
    refine ⟨h1, ?_⟩
    rw [pv, h2]; simp
  | some e :: es, i => by
    obtain ⟨h1, h2⟩ := pv_length es (i + 1)
    have : es.count none ≤ es.length := List.count_le_length
    refine ⟨by simp [pv, h1], ?_⟩
    simp [pv, h2]; omega

theorem pv_mem : ∀ (es : List (Option Challenge)) (i : Nat) (b : Byte), b ∈ (pv i es).1 →
    ∃ j, i < j ∧ j ≤ i + es.length ∧ b = BitVec.ofNat 8 j
  | [], i, b, h => by simp [pv] at h
  | none :: es, i, b, h => by
    obtain ⟨j, h1, h2, h3⟩ := pv_mem es (i + 1) b h
    exact ⟨j, by omega, by simp; omega, h3⟩
  | some e :: es, i, b, h => by
    rw [pv] at h
    rcases List.mem_cons.1 h with h | h
    · exact ⟨i + 1, by omega, by simp, h⟩
    · obtain ⟨j, h1, h2, h3⟩ := pv_mem es (i + 1) b h
      exact ⟨j, by omega, by simp; omega, h3⟩

theorem ofNat8_inj {a b : Nat} (ha : a < 256) (hb : b < 256) (h : BitVec.ofNat 8 a = BitVec.ofNat 8 b) : a = b := by
  have := congrArg BitVec.toNat h
  rwa [BitVec.toNat_ofNat, BitVec.toNat_ofNat, Nat.mod_eq_of_lt ha, Nat.mod_eq_of_lt hb] at this

theorem pv_nodup : ∀ (es : List (Option Challenge)) (i : Nat), i + es.length ≤ 255 → (pv i es).1.Nodup
  | [], i, _ => by simp [pv]
  | none :: es, i, h => pv_nodup es (i + 1) (by simp at h; omega)
  | some e :: es, i, h => by
    simp only [List.length_cons] at h
    rw [pv, List.nodup_cons]
    refine ⟨fun hm => ?_, pv_nodup es (i + 1) (by omega)⟩
    obtain ⟨j, h1, h2, h3⟩ := pv_mem es (i + 1) _ hm
    have := ofNat8_inj (by omega) (by omega) h3
    omega

theorem pv_nonzero (es : List (Option Challenge)) (h : es.length ≤ 255) : 0#8 ∉ (pv 0 es).1 := by
  intro hm
  obtain ⟨j, h1, h2, h3⟩ := pv_mem es 0 _ hm
  have := ofNat8_inj (a := 0) (by omega) (by omega) h3
  omega

theorem pv_zip : ∀ (es : List (Option Challenge)) (i j : Nat) (e : Challenge), es[j]? = some (some e) →
    (BitVec.ofNat 8 (i + j + 1), e.toGf) ∈ (pv i es).1.zip (pv i es).2
  | [], i, j, e, h => by simp at h
  | none :: es, i, j, e, h => by
    cases j with
    | zero => simp at h
    | succ j =>
      have := pv_zip es (i + 1) j e (by simpa using h)
      rwa [show i + 1 + j + 1 = i + (j + 1) + 1 by omega] at this
  | some e' :: es, i, j, e, h => by
    rw [pv]
    cases j with
    | zero =>
      simp only [List.getElem?_cons_zero, Option.some.injEq] at h
      subst h; simp
    | succ j =>
      have := pv_zip es (i + 1) j e (by simpa using h)
      rw [show i + 1 + j + 1 = i + (j + 1) + 1 by omega] at this
      rw [List.zip_cons_cons]
      exact List.mem_cons_of_mem _ this

theorem ready_thr (poly : Gf.Poly) (hok : Gf.PolyOk poly) : ∀ (as : List (SigmaBoolean G)) (es : List (Option Challenge))
    (ts : List (ProofTree G q)) (i : Nat), ComList C σ as es ts →
    (∀ j e, es[j]? = some (some e) → e.toGf = gfEval poly.coefficients (gfByte (BitVec.ofNat 8 (i + j + 1)))) →
    ∃ es' ts', step9ThrChildren poly i ts = .ok ts' ∧ Ready C σ as es' ts' ∧
      (∀ j e, es'[j]? = some e → e.toGf = gfEval poly.coefficients (gfByte (BitVec.ofNat 8 (i + j + 1)))) ∧
      ts'.length = ts.length ∧ ∀ pc, fsProofList pc ts' = fsProofList pc ts
  | [], [], [], i, _, _ => ⟨[], [], rfl, trivial, by simp, rfl, fun _ => rfl⟩
  | a :: as, o :: es, t :: ts, i, h, hv => by
    obtain ⟨es', ts', h1, h2, h3, h4, h5⟩ := ready_thr poly hok as es ts (i + 1) h.2 (fun j e hj => by
      have := hv (j + 1) e (by simpa using hj)
      rwa [show i + (j + 1) + 1 = i + 1 + j + 1 by omega] at this)
    have hr := (com_facts C σ _ _ _ _ h.1).1
    cases o with
    | none =>
      refine ⟨.ofGf (gfEval poly.coefficients (gfByte (BitVec.ofNat 8 (i + 1)))) :: es',
        t.withChallenge (.ofGf (gfEval poly.coefficients (gfByte (BitVec.ofNat 8 (i + 1))))) :: ts', ?_, ?_, ?_, by simp [h4], ?_⟩
      · rw [step9ThrChildren, step9ThrChild, hr]
        simp only [Option.isSome_none, Bool.not_false, if_true]
        rw [Gf.evaluate_eq hok, Outcome.bind_ok, Outcome.pure_eq, Outcome.bind_ok, h1]; rfl
      · exact ⟨⟨false, com_withChallenge C σ a none t _ h.1⟩, h2⟩
      · intro j e hj
        cases j with
        | zero =>
          simp only [List.getElem?_cons_zero, Option.some.injEq] at hj
          rw [← hj, toGf_ofGf]
        | succ j =>
          rw [List.getElem?_cons_succ] at hj
          rw [h3 j e hj, show i + 1 + j + 1 = i + (j + 1) + 1 by omega]
      · intro pc; rw [fsProofList, fsProofList, fs_withChallenge, h5]
    | some e0 =>
      refine ⟨e0 :: es', t :: ts', ?_, ⟨⟨true, h.1⟩, h2⟩, ?_, by simp [h4], ?_⟩
      · rw [step9ThrChildren, step9ThrChild, hr]
        simp only [Option.isSome_some, Bool.not_true, Bool.false_eq_true, if_false]
        rw [Outcome.bind_ok, h1]; rfl
      · intro j e hj
        cases j with
        | zero =>
          simp only [List.getElem?_cons_zero, Option.some.injEq] at hj
          rw [← hj]; exact hv 0 e0 rfl
        | succ j =>
          rw [List.getElem?_cons_succ] at hj
          rw [h3 j e hj, show i + 1 + j + 1 = i + (j + 1) + 1 by omega]
      · intro pc; rw [fsProofList, fsProofList, h5]
  | [], [], _ :: _, _, h, _ => h.elim
  | [], _ :: _, _, _, h, _ => h.elim
  | _ :: _, [], _, _, h, _ => h.elim
  | _ :: _, _ :: _, [], _, h, _ => h.elim

/-- Interpolation gives a polynomial as the verifier expects it. -/
theorem interpolate_fits (es : List (Option Challenge)) (k : Nat) (e : Challenge) (hn : es.length ≤ 255) (hc : es.count none = k) :
    ∃ poly, Gf.interpolate (pv 0 es).1 (pv 0 es).2 e.toGf = .ok poly ∧ Gf.PolyOk poly ∧ poly.degree = es.length - k ∧
      poly.coefficients.length = es.length - k + 1 ∧ poly.coefficients[0]? = some e.toGf ∧
      ∀ j c, es[j]? = some (some c) → c.toGf = gfEval poly.coefficients (gfByte (BitVec.ofNat 8 (j + 1))) := by
  obtain ⟨l1, l2⟩ := pv_length es 0
  obtain ⟨poly, h1, h2, h3, h4, h5, h6⟩ := Gf.interpolate_ok (pv 0 es).1 (pv 0 es).2 e.toGf l1 (pv_nodup es 0 (by omega))
    (pv_nonzero es hn)
  refine ⟨poly, h1, h2, by omega, by omega, ?_, ?_⟩
  · cases hco : poly.coefficients with
    | nil => rw [hco] at h4; simp at h4
    | cons c cs =>
      rw [List.getElem?_cons_zero]
      congr 1
      apply Gf.φ_inj
      rw [← h6, hco]
      simp [Gf.listPoly]
  · intro j c hj
    have := h5 _ (pv_zip es 0 j c hj)
    rw [Nat.zero_add] at this
    apply Gf.φ_inj
    rw [Gf.φ_eval, Gf.φ_byte]
    exact this.symm

/-! #### Step 9 -/

variable (E : ProverEnv G q)

/-- The statement proved by induction for one proposition. -/
def ProveOk (sb : SigmaBoolean G) : Prop := ∀ (s : Bool) (e : Challenge) (t : ProofTree G q), Com E.curve σ sb s (some e) t →
  ∀ fuel, sbDepth sb ≤ fuel → ∃ t' U, rewriteTd (provingStep E) fuel t = .ok t' ∧ convertToUnchecked t' = .ok U ∧
    Consistent sb U ∧ U.challenge = e ∧ fsUnchecked E.curve.codec (computeCommitments E.curve U) = fsProof E.curve.codec t

theorem prove_list : ∀ (as : List (SigmaBoolean G)) (_ : ∀ a ∈ as, ProveOk σ E a) (es : List Challenge)
    (ts : List (ProofTree G q)), Ready E.curve σ as es ts → ∀ fuel, sbDepthList as ≤ fuel →
    ∃ ts' Us, tryMap (rewriteTd (provingStep E) fuel) ts = .ok ts' ∧ convertToUncheckedList ts' = .ok Us ∧
      ConsistentList as Us ∧ Us.map Unchecked.challenge = es ∧ Us.length = ts.length ∧
      fsUncheckedList E.curve.codec (computeCommitmentsList E.curve Us) = fsProofList E.curve.codec ts
  | [], _, [], [], _, _, _ => ⟨[], [], rfl, rfl, trivial, rfl, rfl, rfl⟩
  | a :: as, ih, e :: es, t :: ts, h, fuel, hf => by
    rw [sbDepthList] at hf
    obtain ⟨⟨s, h0⟩, hrest⟩ := h
    obtain ⟨t', U, a1, a2, a3, a4, a5⟩ := ih a (by simp) s e t h0 fuel (by omega)
    obtain ⟨ts', Us, b1, b2, b3, b4, b5, b6⟩ := prove_list as (fun b hb => ih b (by simp [hb])) es ts hrest fuel (by omega)
    refine ⟨t' :: ts', U :: Us, by rw [tryMap, a1, Outcome.bind_ok, b1]; rfl,
      by rw [convertToUncheckedList, a2, Outcome.bind_ok, b2]; rfl, ⟨a3, b3⟩, by simp [a4, b4], by simp [b5], ?_⟩
    rw [computeCommitmentsList, fsUncheckedList, a5, b6, fsProofList]
  | [], _, [], _ :: _, h, _, _ => h.elim
  | [], _, _ :: _, _, h, _, _ => h.elim
  | _ :: _, _, [], _, h, _, _ => h.elim
  | _ :: _, _, _ :: _, [], h, _, _ => h.elim

omit [DecidableEq G] [AddCommGroup G] [Module (ZMod q) G] in
theorem computeList_length [DecidableEq G] [AddCommGroup G] [Module (ZMod q) G] (C : Curve G) :
    ∀ (ts : List (Unchecked G q)), (computeCommitmentsList C ts).length = ts.length
  | [] => rfl
  | t :: ts => by rw [computeCommitmentsList, List.length_cons, computeList_length C ts]; rfl

/-- Common part of the three connectives. -/
theorem prove_conj (items : List (SigmaBoolean G)) (ih : ∀ a ∈ items, ProveOk σ E a) (es : List Challenge)
    (t : ProofTree G q) (r : Option (ProofTree G q)) (kind : PKind) (ukind : UKind) (e : Challenge) (s : Bool) (pos : Position)
    (cs : List (ProofTree G q)) (ht : provingStep E t = .ok r) (hr : r.getD t = .conj kind items (some e) s pos cs)
    (hconv : ∀ us : List (ProofTree G q), convertToUnchecked (.conj kind items (some e) s pos us) =
      (convertToUncheckedList us >>= fun us => pure (Unchecked.conj ukind e us)))
    (hfs : kind.fsBytes = ukind.fsBytes)
    (hc : Ready E.curve σ items es cs) (fuel : Nat) (hf : sbDepthList items ≤ fuel) :
    ∃ t' Us, rewriteTd (provingStep E) (fuel + 1) t = .ok t' ∧ convertToUnchecked t' = .ok (.conj ukind e Us) ∧
      ConsistentList items Us ∧ Us.map Unchecked.challenge = es ∧
      fsUnchecked E.curve.codec (computeCommitments E.curve (.conj ukind e Us)) =
        fsProof E.curve.codec (.conj kind items (some e) s pos cs) := by
  obtain ⟨ts', Us, b1, b2, b3, b4, b5, b6⟩ := prove_list σ E items ih es cs hc fuel hf
  refine ⟨.conj kind items (some e) s pos ts', Us, ?_, ?_, b3, b4, ?_⟩
  · rw [rewriteTd, ht, Outcome.bind_ok, hr]
    simp only [b1, Outcome.bind_ok, Outcome.pure_eq]
  · rw [hconv, b2]; rfl
  · rw [computeCommitments, fsUnchecked, fsProof, b6, hfs, computeList_length, b5]

theorem response_ok (hh : E.hints = []) (hone : E.curve.codec.one = 0) (hs : SecretsOk E.secrets) (p : LeafProp G)
    (hk : holds (secretsKnow E.curve E.secrets) p.toSB = true) (r : ZMod q) (e : Challenge) (pos : Position) :
    ∃ w, IsWitness E.curve.gen p w ∧ step9Response E p (some r) e pos = .ok (secondMessage w r e) := by
  have hown : ∀ w, step9Own E w (some r) e pos = .ok (secondMessage w r e) := by
    intro w
    have hf : findPos (hintOwn E.hints) pos = none := by rw [hh]; rfl
    unfold step9Own; rw [hf]
  have hany : E.secrets.any (fun s => decide (s.image E.curve = p)) = true := by
    cases p <;> exact hk
  cases hfind : E.secrets.find? (fun s => decide (s.image E.curve = p)) with
  | none =>
    rw [List.find?_eq_none] at hfind
    obtain ⟨s, hs1, hs2⟩ := List.any_eq_true.1 hany
    exact absurd hs2 (hfind s hs1)
  | some s =>
    have h1 : s.image E.curve = p := by simpa using List.find?_some hfind
    have h2 := hs s (List.mem_of_find?_eq_some hfind)
    unfold step9Response
    rw [hfind]
    cases s with
    | dlog w =>
      cases p with
      | dlog h =>
        refine ⟨w, ?_, hown w⟩
        simp only [Secret.image, LeafProp.dlog.injEq, expo_eq E.curve hone] at h1
        exact h1.symm
      | dht g h u v => simp [Secret.image] at h1
    | dht w g h u v =>
      cases p with
      | dlog h => simp [Secret.image] at h1
      | dht g' h' u' v' =>
        refine ⟨w, ?_, hown w⟩
        simp only [Secret.image, LeafProp.dht.injEq] at h1
        obtain ⟨rfl, rfl, rfl, rfl⟩ := h1
        exact h2

theorem prove_leaf (hh : E.hints = []) (hone : E.curve.codec.one = 0) (hs : SecretsOk E.secrets) (p : LeafProp G) (s : Bool)
    (e : Challenge) (t : ProofTree G q) (h : ComLeaf E.curve (secretsKnow E.curve E.secrets) p s (some e) t) (fuel : Nat) :
    ∃ t' m z, rewriteTd (provingStep E) (fuel + 1) t = .ok t' ∧ convertToUnchecked t' = .ok (.leaf p m e z) ∧
      fsUnchecked E.curve.codec (computeCommitments E.curve (.leaf p m e z)) = fsProof E.curve.codec t := by
  cases s with
  | true =>
    obtain ⟨e', z, h1, rfl⟩ := h
    cases h1
    refine ⟨_, some (simulate E.curve p e z), z, rfl, rfl, ?_⟩
    rw [computeCommitments, ← (leafValid_iff E.curve hone _ _ _ _).1 (simulate_valid E.curve hone p e z)]; rfl
  | false =>
    obtain ⟨hk, pos, r, rfl⟩ := h
    obtain ⟨w, hw, hr⟩ := response_ok E hh hone hs p hk r e pos
    refine ⟨.unchecked (.leaf p none e (secondMessage w r e)), none, _, ?_, rfl, ?_⟩
    · simp only [rewriteTd, provingStep, Bool.not_false, if_true, step9Leaf, hr]
      rfl
    · rw [computeCommitments, ← (leafValid_iff E.curve hone _ _ _ _).1 (real_valid E.curve hone p w r hw e)]; rfl

theorem prove_ok (hh : E.hints = []) (hone : E.curve.codec.one = 0) (hs : SecretsOk E.secrets) (sb : SigmaBoolean G)
    (hb : sb.Bounded) (hthr : ThrOk sb) : ProveOk (secretsKnow E.curve E.secrets) E sb := by
  induction sb using SigmaBoolean.induct with
  | htriv b => intro s e t h; exact h.elim
  | hdlog h =>
    intro s e t hp fuel hf
    cases fuel with
    | zero => simp [sbDepth] at hf
    | succ fuel =>
      obtain ⟨t', m, z, h1, h2, h3⟩ := prove_leaf E hh hone hs (.dlog h) s e t hp fuel
      exact ⟨t', _, h1, h2, rfl, rfl, h3⟩
  | hdht g h u v =>
    intro s e t hp fuel hf
    cases fuel with
    | zero => simp [sbDepth] at hf
    | succ fuel =>
      obtain ⟨t', m, z, h1, h2, h3⟩ := prove_leaf E hh hone hs (.dht g h u v) s e t hp fuel
      exact ⟨t', _, h1, h2, rfl, rfl, h3⟩
  | hcand items ih =>
    intro s e t hp fuel hf
    have hb' := (SigmaBoolean.boundedList_iff items).1 hb.2.2
    have hthr' := (thrOkList_iff items).1 hthr
    have ih' := fun a ha => ih a ha (hb' a ha) (hthr' a ha)
    rw [sbDepth] at hf
    obtain ⟨pos, cs, es, rfl, hcl, h1, h2⟩ := hp
    cases fuel with
    | zero => omega
    | succ fuel =>
      cases s with
      | true =>
        obtain ⟨e', h3, h4⟩ := h1 rfl
        cases h3
        have hready := ready_sim E.curve _ items (items.map fun _ => e) cs (by rw [List.map_map]; rw [h4] at hcl; exact hcl)
        obtain ⟨t', Us, c1, c2, c3, c4, c5⟩ := prove_conj _ E items ih' _ (.conj .and items (some e) true pos cs) none .and .and e true pos
          cs rfl rfl (fun _ => rfl) rfl hready fuel (by omega)
        refine ⟨t', _, c1, c2, ⟨?_, c3⟩, rfl, c5⟩
        intro c hc
        have hm : c.challenge ∈ Us.map Unchecked.challenge := List.mem_map_of_mem hc
        rw [c4] at hm
        obtain ⟨_, _, h⟩ := List.mem_map.1 hm
        exact h.symm
      | false =>
        have h3 := h2 rfl
        rw [h3] at hcl
        obtain ⟨hready, hfs⟩ := ready_and E.curve _ e items cs hcl
        obtain ⟨t', Us, c1, c2, c3, c4, c5⟩ := prove_conj _ E items ih' _ (.conj .and items (some e) false pos cs)
          (some (.conj .and items (some e) false pos (cs.map (ProofTree.withChallenge e)))) .and .and e false pos
          _ rfl rfl (fun _ => rfl) rfl hready fuel (by omega)
        refine ⟨t', _, c1, c2, ⟨?_, c3⟩, rfl, ?_⟩
        · intro c hc
          have hm : c.challenge ∈ Us.map Unchecked.challenge := List.mem_map_of_mem hc
          rw [c4] at hm
          obtain ⟨_, _, h⟩ := List.mem_map.1 hm
          exact h.symm
        · rw [c5, fsProof, fsProof, hfs, List.length_map]
  | hcor items ih =>
    intro s e t hp fuel hf
    have hb' := (SigmaBoolean.boundedList_iff items).1 hb.2.2
    have hthr' := (thrOkList_iff items).1 hthr
    have ih' := fun a ha => ih a ha (hb' a ha) (hthr' a ha)
    rw [sbDepth] at hf
    obtain ⟨pos, cs, es, rfl, hcl, h1, h2⟩ := hp
    cases fuel with
    | zero => omega
    | succ fuel =>
      cases s with
      | true =>
        obtain ⟨e', es', h3, h4, h5⟩ := h1 rfl
        cases h3
        have hready := ready_sim E.curve _ items es' cs (by rw [h4] at hcl; exact hcl)
        obtain ⟨t', Us, c1, c2, c3, c4, c5⟩ := prove_conj _ E items ih' _ (.conj .or items (some e) true pos cs) none .or .or e true pos
          cs rfl rfl (fun _ => rfl) rfl hready fuel (by omega)
        exact ⟨t', _, c1, c2, ⟨by rw [c4]; exact h5, c3⟩, rfl, c5⟩
      | false =>
        have h3 := h2 rfl
        have hfold := foldl_or E.curve _ items es cs e hcl
        obtain ⟨hready, hfs⟩ := ready_or E.curve _ (e.xor (xorAll (es.filterMap id))) items es cs hcl
        have hstep : step9OrChildren e cs = cs.map fun c => if c.isReal then c.withChallenge (e.xor (xorAll (es.filterMap id))) else c := by
          unfold step9OrChildren
          rw [← hfold]
          rfl
        obtain ⟨t', Us, c1, c2, c3, c4, c5⟩ := prove_conj _ E items ih' _ (.conj .or items (some e) false pos cs)
          (some (.conj .or items (some e) false pos (step9OrChildren e cs))) .or .or e false pos
          _ rfl rfl (fun _ => rfl) rfl (by rw [hstep]; exact hready) fuel (by omega)
        refine ⟨t', _, c1, c2, ⟨?_, c3⟩, rfl, ?_⟩
        · rw [c4, xorAll_fill _ _ h3, xor_xor_cancel]
        · rw [c5, fsProof, fsProof, hstep, hfs, List.length_map]
  | hcth k items ih =>
    intro s e t hp fuel hf
    have hb' := (SigmaBoolean.boundedList_iff items).1 hb.2.2
    have hthr' := (thrOkList_iff items).1 hthr.2
    have ih' := fun a ha => ih a ha (hb' a ha) (hthr' a ha)
    rw [sbDepth] at hf
    obtain ⟨pos, cs, es, poly, rfl, hcl, h1, h2⟩ := hp
    cases fuel with
    | zero => omega
    | succ fuel =>
      cases s with
      | true =>
        obtain ⟨e', es', p, h3, h4, rfl, h5⟩ := h1 rfl
        cases h3
        have hready := ready_sim E.curve _ items es' cs (by rw [h4] at hcl; exact hcl)
        obtain ⟨t', Us, c1, c2, c3, c4, c5⟩ := prove_conj _ E items ih' _ (.conj (.thr k (some p)) items (some e) true pos cs) none
          (.thr k (some p)) (.thr k p) e true pos cs rfl rfl (fun _ => rfl) rfl hready fuel (by omega)
        refine ⟨t', _, c1, c2, ⟨rfl, h5.1, h5.2.1, h5.2.2.1, h5.2.2.2.1, ?_, c3⟩, rfl, c5⟩
        intro i c hc
        refine h5.2.2.2.2 i c.challenge ?_
        rw [← c4, List.getElem?_map, hc]; rfl
      | false =>
        have h3 := h2 rfl
        have hlen := comList_length E.curve _ items es cs hcl
        obtain ⟨p, p1, p2, p3, p4, p5, p6⟩ := interpolate_fits es k.toNat e (by rw [hlen.1]; exact hb.2.1) h3
        obtain ⟨es', ts', r1, r2, r3, r4, r5⟩ := ready_thr E.curve _ p p2 items es cs 0 hcl
          (fun j e hj => by rw [Nat.zero_add]; exact p6 j e hj)
        have hw := withPolynomial_ok k items p e hthr.1 (by omega) (by omega) p5
        have hstep : provingStep E (.conj (.thr k poly) items (some e) false pos cs) =
            .ok (some (.conj (.thr k (some p)) items (some e) false pos ts')) := by
          simp only [provingStep, Bool.false_eq_true, if_false, step9Points_ok E.curve _ items es cs 0 hcl, Outcome.bind_ok, p1, r1, hw,
            Outcome.pure_eq]
        obtain ⟨t', Us, c1, c2, c3, c4, c5⟩ := prove_conj _ E items ih' _ (.conj (.thr k poly) items (some e) false pos cs) _
          (.thr k (some p)) (.thr k p) e false pos _ hstep rfl (fun _ => rfl) rfl r2 fuel (by omega)
        refine ⟨t', _, c1, c2, ⟨rfl, hthr.1, by omega, by omega, p5, ?_, c3⟩, rfl, ?_⟩
        · intro i c hc
          have := r3 i c.challenge (by rw [← c4, List.getElem?_map, hc]; rfl)
          rwa [Nat.zero_add] at this
        · rw [c5, fsProof, fsProof, r5, r4]; rfl

/-! #### Putting the passes together -/

mutual
theorem fs_compute_ok (C : Curve G) : ∀ (t : Unchecked G q), ∃ bs, fsUnchecked C.codec (computeCommitments C t) = .ok bs
  | .leaf p m e z => ⟨_, rfl⟩
  | .conj kind e cs => by
    obtain ⟨bs, h⟩ := fs_compute_okList C cs
    exact ⟨_, by rw [computeCommitments, fsUnchecked, h]; rfl⟩
theorem fs_compute_okList (C : Curve G) : ∀ (ts : List (Unchecked G q)),
    ∃ bs, fsUncheckedList C.codec (computeCommitmentsList C ts) = .ok bs
  | [] => ⟨_, rfl⟩
  | t :: ts => by
    obtain ⟨b, h1⟩ := fs_compute_ok C t
    obtain ⟨bs, h2⟩ := fs_compute_okList C ts
    exact ⟨_, by rw [computeCommitmentsList, fsUncheckedList, h1, h2]; rfl⟩
end

mutual
theorem sigWrite_compute (C : Curve G) : ∀ (t : Unchecked G q) (wr : Bool), sigWrite (computeCommitments C t) wr = sigWrite t wr
  | .leaf p m e z, _ => rfl
  | .conj .and e cs, wr => by rw [computeCommitments, sigWrite, sigWrite, sigWriteAll_compute C cs]
  | .conj .or e cs, wr => by rw [computeCommitments, sigWrite, sigWrite, sigWriteOr_compute C cs]
  | .conj (.thr k p) e cs, wr => by
    rw [computeCommitments, sigWrite, sigWrite, sigWriteAll_compute C cs, computeList_length]
theorem sigWriteAll_compute (C : Curve G) : ∀ (ts : List (Unchecked G q)),
    sigWriteAll (computeCommitmentsList C ts) = sigWriteAll ts
  | [] => rfl
  | t :: ts => by rw [computeCommitmentsList, sigWriteAll, sigWriteAll, sigWrite_compute C t, sigWriteAll_compute C ts]
theorem sigWriteOr_compute (C : Curve G) : ∀ (ts : List (Unchecked G q)),
    sigWriteOr (computeCommitmentsList C ts) = sigWriteOr ts
  | [] => rfl
  | [t] => by
    simp only [computeCommitmentsList, sigWriteOr]; exact sigWrite_compute C t false
  | t :: t' :: ts => by
    have h := sigWriteOr_compute C (t' :: ts)
    simp only [computeCommitmentsList, sigWriteOr] at h ⊢
    rw [sigWrite_compute C t, h]
end

theorem com_unproven {a : SigmaBoolean G} {t : ProofTree G q} {ch : Option Challenge} (h : Com C σ a false ch t) : t.isUnproven = true := by
  cases a with
  | trivial b => exact h.elim
  | dlog g => obtain ⟨h1, pos, r, rfl⟩ := h; rfl
  | dht g x u v => obtain ⟨h1, pos, r, rfl⟩ := h; rfl
  | cand items => obtain ⟨pos, cs, es, rfl, h, h2, h3⟩ := h; rfl
  | cor items => obtain ⟨pos, cs, es, rfl, h, h2, h3⟩ := h; rfl
  | cth k items => obtain ⟨pos, cs, es, poly, rfl, h, h2, h3⟩ := h; rfl

omit [Module (ZMod q) G] in
theorem secretsKnow_eq [Module (ZMod q) G] (C : Curve G) (hone : C.codec.one = 0) (secrets : List (Secret G q)) :
    secretsKnow C secrets = provableWith C.gen secrets := by
  unfold secretsKnow provableWith
  congr 1
  · funext h
    congr 1
    funext s
    cases s with
    | dlog w => simp only [Secret.image, expo_eq C hone, LeafProp.dlog.injEq, eq_comm]
    | dht => simp [Secret.image]
  · funext g h u v
    congr 1
    funext s
    cases s with
    | dlog w => simp [Secret.image]
    | dht => simp only [Secret.image, LeafProp.dht.injEq, eq_comm]

/-- Without sufficient secrets there is no proof. -/
theorem prover_refuses (hh : E.hints = []) (sb : SigmaBoolean G) (hnt : NoTrivial sb)
    (hk : holds (secretsKnow E.curve E.secrets) sb = false) (message : Bytes) : generateProof E sb message = .err := by
  obtain ⟨t0, a1, a2⟩ := mark_ok E hh sb hnt
  rw [hk] at a2
  have hgen : generateProof E sb message =
      (convertToUnproven sb >>= fun tree => proveToUnchecked E (sbDepth sb) tree message >>= fun t => serializeSig t) := by
    cases sb with
    | trivial b => exact hnt.elim
    | _ => rfl
  have hm : markReal E t0 = .ok (MT (secretsKnow E.curve E.secrets) sb true cryptoTreePrefix) := by
    rw [markReal, a2]
    simp [expectUnproven]
  rw [hgen, a1, Outcome.bind_ok]
  unfold proveToUnchecked
  rw [hm, Outcome.bind_ok]
  simp only [MT_isReal, Bool.not_true, Bool.not_false, if_true]
  rfl

theorem prover_complete [NeZero q] (hq : q ≤ 2 ^ 256) (hh : E.hints = []) (hone : E.curve.codec.one = 0) (hs : SecretsOk E.secrets)
    (sb : SigmaBoolean G) (hnt : NoTrivial sb) (hb : sb.Bounded) (hthr : ThrOk sb) (hod : OrDistinct sb)
    (hk : holds (secretsKnow E.curve E.secrets) sb = true) (message : Bytes) :
    ∃ sig, generateProof E sb message = .ok sig ∧ ∀ rest, verifySignature q E.curve sb message (sig ++ rest) = .ok true := by
  obtain ⟨t0, a1, a2⟩ := mark_ok E hh sb hnt
  rw [hk] at a2
  obtain ⟨t1, b1, b2⟩ := polish_ok (q := q) (secretsKnow E.curve E.secrets) sb hnt hod false cryptoTreePrefix (fun _ => hk) (sbDepth sb) (Nat.le_refl _)
  obtain ⟨t2, c1, c2⟩ := commit_ok (secretsKnow E.curve E.secrets) E hh sb hb hthr none t1 b2 (sbDepth sb) (Nat.le_refl _)
  have hex : ∀ e, ∃ t' U, rewriteTd (provingStep E) (sbDepth sb) (t2.withChallenge e) = .ok t' ∧ convertToUnchecked t' = .ok U ∧
      Consistent sb U ∧ U.challenge = e ∧
      fsUnchecked E.curve.codec (computeCommitments E.curve U) = fsProof E.curve.codec t2 := by
    intro e
    obtain ⟨t', U, d1, d2, d3, d4, d5⟩ := prove_ok E hh hone hs sb hb hthr false e _ (com_withChallenge E.curve _ sb none t2 e c2)
      (sbDepth sb) (Nat.le_refl _)
    exact ⟨t', U, d1, d2, d3, d4, by rw [d5, fs_withChallenge]⟩
  obtain ⟨bs, hbs⟩ : ∃ bs, fsProof E.curve.codec t2 = .ok bs := by
    obtain ⟨_, U, _, _, _, _, h⟩ := hex zeroChallenge
    obtain ⟨bs, hb2⟩ := fs_compute_ok E.curve U
    exact ⟨bs, by rw [← h, hb2]⟩
  obtain ⟨t', U, d1, d2, d3, d4, d5⟩ := hex (fsHash E.curve.hash (bs ++ message))
  obtain ⟨sig, s1, s2⟩ := verify_complete hq E.curve hone sb hb message (computeCommitments E.curve U)
    (consistent_compute E.curve sb U d3) (allValid_compute E.curve hone U) bs (by rw [d5, hbs])
    (by rw [compute_challenge, d4])
  refine ⟨sig, ?_, s2⟩
  have hgen : generateProof E sb message =
      (convertToUnproven sb >>= fun tree => proveToUnchecked E (sbDepth sb) tree message >>= fun t => serializeSig t) := by
    cases sb with
    | trivial b => exact hnt.elim
    | _ => rfl
  have hm : markReal E t0 = .ok (MT (secretsKnow E.curve E.secrets) sb false cryptoTreePrefix) := by
    rw [markReal, a2]
    simp [expectUnproven]
  have hpol : polishSimulated (sbDepth sb) (MT (secretsKnow E.curve E.secrets) sb false cryptoTreePrefix) = .ok t1 := by
    rw [polishSimulated, b1, Outcome.bind_ok, expectUnproven, if_pos (pol_facts _ _ _ _ _ b2).1]
  have hcom : simulateAndCommit E (sbDepth sb) t1 = .ok t2 := by
    rw [simulateAndCommit, c1, Outcome.bind_ok, expectUnproven, if_pos (com_unproven E.curve _ c2)]
  have hpu : proveToUnchecked E (sbDepth sb) t0 message = .ok U := by
    unfold proveToUnchecked
    rw [hm, Outcome.bind_ok]
    simp only [MT_isReal, Bool.not_false, Bool.not_true, Bool.false_eq_true, if_false, hpol, Outcome.bind_ok, hcom, hbs, proving, d1, d2]
  rw [hgen, a1, Outcome.bind_ok, hpu, Outcome.bind_ok, ← s1]
  exact (sigWrite_compute E.curve U true).symm

end

end Verif.Sigma
