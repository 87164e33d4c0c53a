import Verif.Proofs.ProverMark

set_option linter.unusedSimpArgs false
set_option linter.unusedVariables false

/-! Prover steps 4 to 6: challenges of simulated nodes and commitments. -/

namespace Verif.Sigma
open Verif Verif.Spec

section
variable {G : Type} [DecidableEq G] {q : Nat} [AddCommGroup G] [Module (ZMod q) G]

/-- The polynomial has degree `n - k`, starts with `e` and takes the values `es` at 1, 2, … -/
def PolyFits (n : Nat) (k : Byte) (poly : Gf.Poly) (e : Challenge) (es : List Challenge) : Prop :=
  k.toNat ≤ n ∧ poly.degree = n - k.toNat ∧ poly.coefficients.length = n - k.toNat + 1 ∧
    poly.coefficients[0]? = some e.toGf ∧
    ∀ i c, es[i]? = some c → c.toGf = gfEval poly.coefficients (gfByte (BitVec.ofNat 8 (i + 1)))

variable (C : Curve G) (σ : Assignment G)

/-- A leaf after the commitments are made. -/
def ComLeaf (p : LeafProp G) (s : Bool) (ch : Option Challenge) (t : ProofTree G q) : Prop :=
  match s with
  | true => ∃ e z, ch = some e ∧ t = .unchecked (.leaf p (some (simulate C p e z)) e z)
  | false => holds σ p.toSB = true ∧ ∃ pos r, t = .leaf p (some (firstMessage C p r)) (some r) ch false pos

mutual
/-- The tree after step 6: `s` tells whether the root is simulated, `ch` is its challenge. -/
def Com : SigmaBoolean G → Bool → Option Challenge → ProofTree G q → Prop
  | .trivial _, _, _, _ => False
  | .dlog h, s, ch, t => ComLeaf C σ (.dlog h) s ch t
  | .dht g h u v, s, ch, t => ComLeaf C σ (.dht g h u v) s ch t
  | .cand items, s, ch, t => ∃ pos cs es, t = .conj .and items ch s pos cs ∧ ComList items es cs ∧
      (s = true → ∃ e, ch = some e ∧ es = items.map fun _ => some e) ∧ (s = false → es = items.map fun _ => none)
  | .cor items, s, ch, t => ∃ pos cs es, t = .conj .or items ch s pos cs ∧ ComList items es cs ∧
      (s = true → ∃ e es', ch = some e ∧ es = es'.map some ∧ xorAll es' = e) ∧ (s = false → es.count none = 1)
  | .cth k items, s, ch, t => ∃ pos cs es poly, t = .conj (.thr k poly) items ch s pos cs ∧ ComList items es cs ∧
      (s = true → ∃ e es' p, ch = some e ∧ es = es'.map some ∧ poly = some p ∧ PolyFits items.length k p e es') ∧
      (s = false → es.count none = k.toNat)
/-- Child by child: children with a challenge are simulated, those without are real. -/
def ComList : List (SigmaBoolean G) → List (Option Challenge) → List (ProofTree G q) → Prop
  | [], [], [] => True
  | a :: as, e :: es, t :: ts => Com a e.isSome e t ∧ ComList as es ts
  | _, _, _ => False
end

/-- Children before they are committed to. -/
def PolMix : List (SigmaBoolean G) → List (Option Challenge) → List (ProofTree G q) → Prop
  | [], [], [] => True
  | a :: as, e :: es, t :: ts => Pol σ a e.isSome e t ∧ PolMix as es ts
  | _, _, _ => False

omit [AddCommGroup G] [Module (ZMod q) G] in
theorem pol_withChallenge (a : SigmaBoolean G) (s : Bool) (ch : Option Challenge) (t : ProofTree G q) (e : Challenge)
    (h : Pol σ a s ch t) : Pol σ a s (some e) (t.withChallenge e) := by
  cases a with
  | trivial b => exact h.elim
  | dlog g => obtain ⟨h1, pos, rfl⟩ := h; exact ⟨h1, pos, rfl⟩
  | dht g x u v => obtain ⟨h1, pos, rfl⟩ := h; exact ⟨h1, pos, rfl⟩
  | cand items => obtain ⟨pos, cs, rfl, h⟩ := h; exact ⟨pos, cs, rfl, h⟩
  | cor items => obtain ⟨pos, cs, fl, rfl, h⟩ := h; exact ⟨pos, cs, fl, rfl, h⟩
  | cth k items => obtain ⟨pos, cs, fl, rfl, h⟩ := h; exact ⟨pos, cs, fl, rfl, h⟩

omit [AddCommGroup G] [Module (ZMod q) G] in
theorem pol_facts (a : SigmaBoolean G) (s : Bool) (ch : Option Challenge) (t : ProofTree G q)
    (h : Pol σ a s ch t) : t.isUnproven = true ∧ t.isReal = !s ∧ t.challenge = ch := by
  cases a with
  | trivial b => exact h.elim
  | dlog g => obtain ⟨h1, pos, rfl⟩ := h; exact ⟨rfl, rfl, rfl⟩
  | dht g x u v => obtain ⟨h1, pos, rfl⟩ := h; exact ⟨rfl, rfl, rfl⟩
  | cand items => obtain ⟨pos, cs, rfl, h⟩ := h; exact ⟨rfl, rfl, rfl⟩
  | cor items => obtain ⟨pos, cs, fl, rfl, h⟩ := h; exact ⟨rfl, rfl, rfl⟩
  | cth k items => obtain ⟨pos, cs, fl, rfl, h⟩ := h; exact ⟨rfl, rfl, rfl⟩

omit [AddCommGroup G] [Module (ZMod q) G] in
theorem polList_length : ∀ (as : List (SigmaBoolean G)) (fs : List Bool) (ts : List (ProofTree G q)), PolList σ as fs ts →
    fs.length = as.length ∧ ts.length = as.length
  | [], [], [], _ => ⟨rfl, rfl⟩
  | a :: as, f :: fs, t :: ts, h => by
    have := polList_length as fs ts h.2
    simp [this]
  | [], [], _ :: _, h => h.elim
  | [], _ :: _, _, h => h.elim
  | _ :: _, [], _, h => h.elim
  | _ :: _, _ :: _, [], h => h.elim

omit [AddCommGroup G] [Module (ZMod q) G] in
theorem polList_unproven : ∀ (as : List (SigmaBoolean G)) (fs : List Bool) (ts : List (ProofTree G q)), PolList σ as fs ts →
    ∀ c ∈ ts, c.isUnproven = true
  | [], [], [], _ => by simp
  | a :: as, f :: fs, t :: ts, h => by
    intro c hc
    rcases List.mem_cons.1 hc with rfl | hc
    · exact (pol_facts σ a f none _ h.1).1
    · exact polList_unproven as fs ts h.2 c hc
  | [], [], _ :: _, h => h.elim
  | [], _ :: _, _, h => h.elim
  | _ :: _, [], _, h => h.elim
  | _ :: _, _ :: _, [], h => h.elim

omit [AddCommGroup G] [Module (ZMod q) G] in
/-- All children simulated, each given a challenge. -/
theorem polMix_zip : ∀ (as : List (SigmaBoolean G)) (fs : List Bool) (ts : List (ProofTree G q)) (es : List Challenge),
    PolList σ as fs ts → (∀ f ∈ fs, f = true) → es.length = as.length →
    PolMix σ as (es.map some) (List.zipWith (fun e t => t.withChallenge e) es ts)
  | [], [], [], [], _, _, _ => trivial
  | a :: as, f :: fs, t :: ts, e :: es, h, hf, hl => by
    have : f = true := hf f (by simp)
    subst this
    exact ⟨pol_withChallenge σ a true none t e h.1,
      polMix_zip as fs ts es h.2 (fun g hg => hf g (by simp [hg])) (by simpa using hl)⟩
  | [], [], [], _ :: _, _, _, hl => by simp at hl
  | _ :: _, _, _, [], _, _, hl => by simp at hl
  | [], [], _ :: _, _, h, _, _ => h.elim
  | [], _ :: _, _, _, h, _, _ => h.elim
  | _ :: _, [], _, _, h, _, _ => h.elim
  | _ :: _, _ :: _, [], _, h, _, _ => h.elim

omit [AddCommGroup G] [Module (ZMod q) G] in
/-- All children real. -/
theorem polMix_real : ∀ (as : List (SigmaBoolean G)) (ts : List (ProofTree G q)),
    PolList σ as (as.map fun _ => false) ts → PolMix σ as (as.map fun _ => none) ts
  | [], [], _ => trivial
  | a :: as, t :: ts, h => ⟨h.1, polMix_real as ts h.2⟩
  | [], _ :: _, h => h.elim
  | _ :: _, [], h => h.elim

omit [AddCommGroup G] [Module (ZMod q) G] in
/-- Simulated children get challenges, real ones do not. -/
theorem polMix_step4 (f : Position → Challenge) : ∀ (as : List (SigmaBoolean G)) (fs : List Bool) (ts : List (ProofTree G q)),
    PolList σ as fs ts → ∃ es, PolMix σ as es (ts.map fun c => if c.isReal then c else c.withChallenge (f c.position)) ∧
      es.count none = fs.count false
  | [], [], [], _ => ⟨[], trivial, rfl⟩
  | a :: as, g :: fs, t :: ts, h => by
    obtain ⟨es, h1, h2⟩ := polMix_step4 f as fs ts h.2
    have hr := (pol_facts σ a g none t h.1).2.1
    cases g with
    | true =>
      refine ⟨some (f t.position) :: es, ?_, by simp [h2]⟩
      rw [List.map_cons, hr]
      exact ⟨pol_withChallenge σ a true none t _ h.1, h1⟩
    | false =>
      refine ⟨none :: es, ?_, by simp [h2]⟩
      rw [List.map_cons, hr]
      exact ⟨h.1, h1⟩
  | [], [], _ :: _, h => h.elim
  | [], _ :: _, _, h => h.elim
  | _ :: _, [], _, h => h.elim
  | _ :: _, _ :: _, [], h => h.elim

theorem foldl_xor_out : ∀ (es : List Challenge) (e : Challenge), es.foldl (fun acc c => acc.xor c) e = e.xor (xorAll es)
  | [], e => (xor_zero e).symm
  | c :: es, e => by rw [List.foldl_cons, foldl_xor_out es, xorAll, xor_assoc]

omit [DecidableEq G] [AddCommGroup G] [Module (ZMod q) G] in
theorem withChallenge_challenge (t : ProofTree G q) (e : Challenge) : (t.withChallenge e).challenge = some e := by
  cases t with
  | unchecked u => cases u <;> rfl
  | _ => rfl

omit [DecidableEq G] [AddCommGroup G] [Module (ZMod q) G] in
theorem foldl_tail (f : Position → Challenge) (tail : List (ProofTree G q)) (e : Challenge) :
    (tail.map fun c => c.withChallenge (f c.position)).foldl
      (fun acc c => match c.challenge with | some ec => acc.xor ec | none => acc) e =
    e.xor (xorAll (tail.map fun c => f c.position)) := by
  rw [← foldl_xor_out, List.foldl_map, List.foldl_map]
  congr 1
  funext acc c
  rw [withChallenge_challenge]

omit [DecidableEq G] [AddCommGroup G] [Module (ZMod q) G] in
theorem map_zipWith (f : ProofTree G q → Challenge) (ts : List (ProofTree G q)) :
    (ts.map fun c => c.withChallenge (f c)) = List.zipWith (fun e t => t.withChallenge e) (ts.map f) ts := by
  induction ts with
  | nil => rfl
  | cons t ts ih => rw [List.map_cons, ih]; rfl

omit [DecidableEq G] [AddCommGroup G] [Module (ZMod q) G] in
theorem step4Or_zip (E : ProverEnv G q) (e : Challenge) (ts : List (ProofTree G q)) (hne : ts ≠ []) :
    ∃ es, es.length = ts.length ∧ step4OrChildren E e ts = List.zipWith (fun e t => t.withChallenge e) es ts ∧ xorAll es = e := by
  cases ts with
  | nil => exact absurd rfl hne
  | cons head tail =>
    refine ⟨e.xor (xorAll (tail.map fun c => E.rnd.challenge c.position)) :: tail.map fun c => E.rnd.challenge c.position,
      by simp, ?_, ?_⟩
    · unfold step4OrChildren
      have := foldl_tail E.rnd.challenge tail e
      rw [List.zipWith_cons_cons, ← map_zipWith (fun c => E.rnd.challenge c.position)]
      exact congrArg₂ List.cons (congrArg (fun x => ProofTree.withChallenge x head) this) rfl
    · rw [xorAll, xor_xor_cancel]

omit [DecidableEq G] [AddCommGroup G] [Module (ZMod q) G] in
theorem step4Thr_zip (poly : Gf.Poly) (hok : Gf.PolyOk poly) : ∀ (ts : List (ProofTree G q)) (i : Nat),
    ∃ es, es.length = ts.length ∧ step4ThrChildren poly i ts = .ok (List.zipWith (fun e t => t.withChallenge e) es ts) ∧
      ∀ j c, es[j]? = some c → c.toGf = gfEval poly.coefficients (gfByte (BitVec.ofNat 8 (i + j + 1)))
  | [], i => ⟨[], rfl, rfl, by simp⟩
  | t :: ts, i => by
    obtain ⟨es, h1, h2, h3⟩ := step4Thr_zip poly hok ts (i + 1)
    refine ⟨.ofGf (gfEval poly.coefficients (gfByte (BitVec.ofNat 8 (i + 1)))) :: es, by simp [h1], ?_, ?_⟩
    · rw [step4ThrChildren, Gf.evaluate_eq hok, Outcome.bind_ok, h2]; rfl
    · intro j c hj
      cases j with
      | zero =>
        simp only [List.getElem?_cons_zero, Option.some.injEq] at hj
        rw [← hj, toGf_ofGf]
      | succ j =>
        rw [List.getElem?_cons_succ] at hj
        rw [h3 j c hj, show i + 1 + j + 1 = i + (j + 1) + 1 by omega]

omit [DecidableEq G] [AddCommGroup G] [Module (ZMod q) G] in
theorem withPolynomial_ok (k : Byte) (items : List (SigmaBoolean G)) (poly : Gf.Poly) (e : Challenge) (hk : k.toNat ≤ items.length)
    (hd : poly.degree = items.length - k.toNat) (hl : poly.coefficients.length = items.length - k.toNat + 1)
    (h0 : poly.coefficients[0]? = some e.toGf) : withPolynomial k items poly = .ok (.thr k (some poly)) := by
  obtain ⟨bs, h1, h2, _⟩ := poly_io e poly items.length k.toNat hk hd hl h0
  unfold withPolynomial
  rw [h1, Outcome.bind_ok, if_neg (by omega), if_pos h2]; rfl

omit [AddCommGroup G] [Module (ZMod q) G] in
theorem polMix_items_nil (cs : List (ProofTree G q)) (es : List (Option Challenge)) (h : PolMix σ [] es cs) : cs = [] := by
  cases es <;> cases cs <;> first | rfl | exact h.elim

omit [DecidableEq G] [AddCommGroup G] in
theorem thrOkList_iff (l : List (SigmaBoolean G)) : ThrOkList l ↔ ∀ a ∈ l, ThrOk a := by
  induction l with
  | nil => simp [ThrOkList]
  | cons a l ih => simp [ThrOkList, ih]

variable (E : ProverEnv G q) (hh : E.hints = [])

/-- The statement proved by induction for one proposition. -/
def CommitOk (sb : SigmaBoolean G) : Prop := ∀ (ch : Option Challenge) (t : ProofTree G q), Pol σ sb ch.isSome ch t →
  ∀ fuel, sbDepth sb ≤ fuel → ∃ t', rewriteTd (commitStep E) fuel t = .ok t' ∧ Com E.curve σ sb ch.isSome ch t'

theorem commit_list : ∀ (as : List (SigmaBoolean G)) (_ : ∀ a ∈ as, CommitOk σ E a) (es : List (Option Challenge))
    (ts : List (ProofTree G q)), PolMix σ as es ts → ∀ fuel, sbDepthList as ≤ fuel →
    ∃ us, tryMap (rewriteTd (commitStep E) fuel) ts = .ok us ∧ ComList E.curve σ as es us
  | [], _, [], [], _, _, _ => ⟨[], rfl, trivial⟩
  | a :: as, ih, e :: es, t :: ts, h, fuel, hf => by
    rw [sbDepthList] at hf
    obtain ⟨u, h4, h5⟩ := ih a (by simp) e t h.1 fuel (by omega)
    obtain ⟨us, h6, h7⟩ := commit_list as (fun b hb => ih b (by simp [hb])) es ts h.2 fuel (by omega)
    exact ⟨u :: us, by rw [tryMap, h4, Outcome.bind_ok, h6]; rfl, h5, h7⟩
  | [], _, [], _ :: _, h, _, _ => h.elim
  | [], _, _ :: _, _, h, _, _ => h.elim
  | _ :: _, _, [], _, h, _, _ => h.elim
  | _ :: _, _, _ :: _, [], h, _, _ => h.elim

theorem commit_conj (items : List (SigmaBoolean G)) (ih : ∀ a ∈ items, CommitOk σ E a) (es : List (Option Challenge))
    (t : ProofTree G q) (r : Option (ProofTree G q)) (kind : PKind) (ch : Option Challenge) (s : Bool) (pos : Position)
    (cs : List (ProofTree G q)) (ht : commitStep E t = .ok r) (hr : r.getD t = .conj kind items ch s pos cs)
    (hc : PolMix σ items es cs) (fuel : Nat) (hf : sbDepthList items ≤ fuel) :
    ∃ us, rewriteTd (commitStep E) (fuel + 1) t = .ok (.conj kind items ch s pos us) ∧ ComList E.curve σ items es us := by
  obtain ⟨us, h1, h2⟩ := commit_list σ E items ih es cs hc fuel hf
  refine ⟨us, ?_, h2⟩
  rw [rewriteTd, ht, Outcome.bind_ok, hr]
  simp only [h1, Outcome.bind_ok, Outcome.pure_eq]

include hh

theorem commit_leaf (p : LeafProp G) (ch : Option Challenge) (pos : Position) (hσ : ch.isSome = false → holds σ p.toSB = true)
    (fuel : Nat) : ∃ t', rewriteTd (commitStep E) (fuel + 1) (.leaf p none none ch ch.isSome pos) = .ok t' ∧
      ComLeaf E.curve σ p ch.isSome ch t' := by
  have hf : findPos (hintCommitments E.hints) pos = none := by rw [hh]; rfl
  cases ch with
  | none =>
    refine ⟨_, ?_, hσ rfl, pos, E.rnd.realR pos, rfl⟩
    rw [rewriteTd, commitStep, step5, hf]; rfl
  | some e =>
    refine ⟨_, ?_, e, E.rnd.simZ pos, rfl, rfl⟩
    rw [rewriteTd, commitStep, step5, hf]; rfl

theorem commit_ok (sb : SigmaBoolean G) (hb : sb.Bounded) (hthr : ThrOk sb) : CommitOk σ E sb := by
  induction sb using SigmaBoolean.induct with
  | htriv b => intro ch t h; exact h.elim
  | hdlog h =>
    intro ch t hp fuel hf
    obtain ⟨h1, pos, rfl⟩ := hp
    cases fuel with
    | zero => simp [sbDepth] at hf
    | succ fuel => exact commit_leaf σ E hh (.dlog h) ch pos h1 fuel
  | hdht g h u v =>
    intro ch t hp fuel hf
    obtain ⟨h1, pos, rfl⟩ := hp
    cases fuel with
    | zero => simp [sbDepth] at hf
    | succ fuel => exact commit_leaf σ E hh (.dht g h u v) ch pos h1 fuel
  | hcand items ih =>
    intro ch t hp fuel hf
    have hb' := (SigmaBoolean.boundedList_iff items).1 hb.2.2
    have hthr' := (thrOkList_iff items).1 hthr
    have ih' := fun a ha => ih a ha (hb' a ha) (hthr' a ha)
    rw [sbDepth] at hf
    obtain ⟨pos, cs, rfl, h1⟩ := hp
    cases fuel with
    | zero => omega
    | succ fuel =>
      cases ch with
      | none =>
        obtain ⟨us, h2, h3⟩ := commit_conj σ E items ih' _ _ none .and none false pos cs rfl rfl (polMix_real σ items cs h1) fuel
          (by omega)
        exact ⟨_, h2, pos, us, _, rfl, h3, by simp, fun _ => rfl⟩
      | some e =>
        have hl := (polList_length σ _ _ _ h1).2
        have h2 := polMix_zip σ items _ cs (cs.map fun _ => e) h1 (by simp) (by simp [hl])
        rw [← map_zipWith (fun _ => e)] at h2
        obtain ⟨us, h3, h4⟩ := commit_conj σ E items ih' _ (.conj .and items (some e) true pos cs)
          (some (.conj .and items (some e) true pos (cs.map (ProofTree.withChallenge e)))) .and (some e) true pos _ rfl rfl h2 fuel (by omega)
        refine ⟨_, h3, pos, us, _, rfl, h4, fun _ => ⟨e, rfl, ?_⟩, by simp⟩
        rw [List.map_map]
        apply List.ext_getElem
        · simp [hl]
        · simp
  | hcor items ih =>
    intro ch t hp fuel hf
    have hb' := (SigmaBoolean.boundedList_iff items).1 hb.2.2
    have hthr' := (thrOkList_iff items).1 hthr
    have ih' := fun a ha => ih a ha (hb' a ha) (hthr' a ha)
    rw [sbDepth] at hf
    obtain ⟨pos, cs, flags, rfl, f1, f2, h1⟩ := hp
    have hun := castToUnp_ok (polList_unproven σ _ _ _ h1)
    cases fuel with
    | zero => omega
    | succ fuel =>
      cases ch with
      | none =>
        obtain ⟨es, h2, h3⟩ := polMix_step4 σ (fun pos => (findPos (hintProofs E.hints) pos).getD (E.rnd.challenge pos)) items flags cs h1
        have hstep : commitStep E (.conj .or items none false pos cs) = .ok (some (.conj .or items none false pos (cs.map fun c =>
            if c.isReal then c else c.withChallenge ((findPos (hintProofs E.hints) c.position).getD (E.rnd.challenge c.position))))) := by
          simp only [commitStep, step4RealChildren, hun]; rfl
        obtain ⟨us, h4, h5⟩ := commit_conj σ E items ih' es _ _ .or none false pos _ hstep rfl h2 fuel (by omega)
        exact ⟨_, h4, pos, us, es, rfl, h5, by simp, fun _ => by rw [h3]; exact f2 rfl⟩
      | some e =>
        have hl := polList_length σ _ _ _ h1
        have hne : cs ≠ [] := by
          intro h0
          have := hb.1
          rw [h0] at hl
          simp at hl; omega
        obtain ⟨es, e1, e2, e3⟩ := step4Or_zip E e cs hne
        have h2 := polMix_zip σ items flags cs es h1 (f1 rfl) (by omega)
        have hstep : commitStep E (.conj .or items (some e) true pos cs) = .ok (some (.conj .or items (some e) true pos
            (List.zipWith (fun e t => t.withChallenge e) es cs))) := by
          simp only [commitStep, hun, e2.symm]; rfl
        obtain ⟨us, h4, h5⟩ := commit_conj σ E items ih' _ _ _ .or (some e) true pos _ hstep rfl h2 fuel (by omega)
        exact ⟨_, h4, pos, us, _, rfl, h5, fun _ => ⟨e, es, rfl, rfl, e3⟩, by simp⟩
  | hcth k items ih =>
    intro ch t hp fuel hf
    have hb' := (SigmaBoolean.boundedList_iff items).1 hb.2.2
    have hthr' := (thrOkList_iff items).1 hthr.2
    have ih' := fun a ha => ih a ha (hb' a ha) (hthr' a ha)
    rw [sbDepth] at hf
    obtain ⟨pos, cs, flags, rfl, f1, f2, h1⟩ := hp
    have hun := castToUnp_ok (polList_unproven σ _ _ _ h1)
    cases fuel with
    | zero => omega
    | succ fuel =>
      cases ch with
      | none =>
        obtain ⟨es, h2, h3⟩ := polMix_step4 σ (fun pos => (findPos (hintProofs E.hints) pos).getD (E.rnd.challenge pos)) items flags cs h1
        have hstep : commitStep E (.conj (.thr k none) items none false pos cs) = .ok (some (.conj (.thr k none) items none false pos
            (cs.map fun c =>
            if c.isReal then c else c.withChallenge ((findPos (hintProofs E.hints) c.position).getD (E.rnd.challenge c.position))))) := by
          simp only [commitStep, step4RealChildren, hun]; rfl
        obtain ⟨us, h4, h5⟩ := commit_conj σ E items ih' es _ _ (.thr k none) none false pos _ hstep rfl h2 fuel (by omega)
        exact ⟨_, h4, pos, us, es, none, rfl, h5, by simp, fun _ => by rw [h3]; exact f2 rfl⟩
      | some e =>
        have hl := polList_length σ _ _ _ h1
        have hk := hthr.1
        obtain ⟨co, c1, c2, c3⟩ := polyFromBytes_ok e (cs.length - k.toNat)
          ((List.range ((cs.length - k.toNat) * 24)).map (E.rnd.bytes pos)) (by simp)
        have hok : Gf.PolyOk ⟨e.toGf :: co, cs.length - k.toNat⟩ := Gf.polyOk_full (n := cs.length - k.toNat) (by simp [c2]) rfl
        obtain ⟨es, e1, e2, e3⟩ := step4Thr_zip ⟨e.toGf :: co, cs.length - k.toNat⟩ hok cs 0
        have h2 := polMix_zip σ items flags cs es h1 (f1 rfl) (by omega)
        have hw := withPolynomial_ok k items ⟨e.toGf :: co, cs.length - k.toNat⟩ e hk (by simp [hl.2]) (by simp [c2, hl.2]) rfl
        have hstep : commitStep E (.conj (.thr k none) items (some e) true pos cs) =
            .ok (some (.conj (.thr k (some ⟨e.toGf :: co, cs.length - k.toNat⟩)) items (some e) true pos
            (List.zipWith (fun e t => t.withChallenge e) es cs))) := by
          simp only [commitStep, hun, Bool.not_true, Bool.false_eq_true, if_false, Outcome.bind_ok, if_neg (show ¬ cs.length < k.toNat by omega),
            c1, e2, hw, Outcome.pure_eq]
        obtain ⟨us, h4, h5⟩ := commit_conj σ E items ih' _ _ _ _ (some e) true pos _ hstep rfl h2 fuel (by omega)
        refine ⟨_, h4, pos, us, _, _, rfl, h5, fun _ => ⟨e, es, _, rfl, rfl, rfl, hk, by simp [hl.2], by simp [c2, hl.2], rfl, ?_⟩, by simp⟩
        intro i c hi
        have := e3 i c hi
        rwa [Nat.zero_add] at this

end

end Verif.Sigma
