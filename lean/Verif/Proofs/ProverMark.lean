import Verif.Model.Prover
import Verif.Proofs.SigmaFs

set_option linter.unusedSimpArgs false
set_option linter.unusedVariables false

/-! Prover steps 1 to 3: marking nodes real or simulated. -/

namespace Verif.Sigma
open Verif Verif.Spec

section
variable {G : Type} [DecidableEq G] {q : Nat}

mutual
theorem ubeq_iff : ∀ a b : Unchecked G q, Unchecked.beq a b = true ↔ a = b
  | .leaf p m e z, .leaf p' m' e' z' => by simp [Unchecked.beq, and_assoc]
  | .conj k e cs, .conj k' e' cs' => by simp [Unchecked.beq, and_assoc, ubeqList_iff cs cs']
  | .leaf _ _ _ _, .conj _ _ _ => by simp [Unchecked.beq]
  | .conj _ _ _, .leaf _ _ _ _ => by simp [Unchecked.beq]
theorem ubeqList_iff : ∀ a b : List (Unchecked G q), Unchecked.beqList a b = true ↔ a = b
  | [], [] => by simp [Unchecked.beqList]
  | a :: as, b :: bs => by simp [Unchecked.beqList, ubeq_iff a b, ubeqList_iff as bs]
  | [], _ :: _ => by simp [Unchecked.beqList]
  | _ :: _, [] => by simp [Unchecked.beqList]
end

mutual
theorem pbeq_iff : ∀ a b : ProofTree G q, ProofTree.beq a b = true ↔ a = b
  | .unchecked t, .unchecked t' => by simp [ProofTree.beq, ubeq_iff]
  | .leaf p m r e s pos, .leaf p' m' r' e' s' pos' => by simp [ProofTree.beq, and_assoc]
  | .conj k i e s pos cs, .conj k' i' e' s' pos' cs' => by
    simp [ProofTree.beq, and_assoc, pbeqList_iff cs cs', SigmaBoolean.beqList_iff i (fun c _ b => SigmaBoolean.beq_iff c b) i']
  | .unchecked _, .leaf _ _ _ _ _ _ => by simp [ProofTree.beq]
  | .unchecked _, .conj _ _ _ _ _ _ => by simp [ProofTree.beq]
  | .leaf _ _ _ _ _ _, .unchecked _ => by simp [ProofTree.beq]
  | .leaf _ _ _ _ _ _, .conj _ _ _ _ _ _ => by simp [ProofTree.beq]
  | .conj _ _ _ _ _ _, .unchecked _ => by simp [ProofTree.beq]
  | .conj _ _ _ _ _ _, .leaf _ _ _ _ _ _ => by simp [ProofTree.beq]
theorem pbeqList_iff : ∀ a b : List (ProofTree G q), ProofTree.beqList a b = true ↔ a = b
  | [], [] => by simp [ProofTree.beqList]
  | a :: as, b :: bs => by simp [ProofTree.beqList, pbeq_iff a b, pbeqList_iff as bs]
  | [], _ :: _ => by simp [ProofTree.beqList]
  | _ :: _, [] => by simp [ProofTree.beqList]
end

mutual
/-- The tree after marking, with the flag and the position of the root replaced. -/
def MT (σ : Assignment G) : SigmaBoolean G → Bool → Position → ProofTree G q
  | .trivial _, s, pos => .conj .and [] none s pos []
  | .dlog h, s, pos => .leaf (.dlog h) none none none s pos
  | .dht g h u v, s, pos => .leaf (.dht g h u v) none none none s pos
  | .cand items, s, pos => .conj .and items none s pos (MTList σ items)
  | .cor items, s, pos => .conj .or items none s pos (MTList σ items)
  | .cth k items, s, pos => .conj (.thr k none) items none s pos (MTList σ items)
/-- Children after marking. -/
def MTList (σ : Assignment G) : List (SigmaBoolean G) → List (ProofTree G q)
  | [] => []
  | a :: l => MT σ a (!holds σ a) cryptoTreePrefix :: MTList σ l
end

variable (σ : Assignment G)

@[simp] theorem MT_withSimulated (a : SigmaBoolean G) (s s' : Bool) (pos : Position) :
    (MT (q := q) σ a s pos).withSimulated s' = MT σ a s' pos := by cases a <;> simp [MT, ProofTree.withSimulated]
@[simp] theorem MT_withPosition (a : SigmaBoolean G) (s : Bool) (pos pos' : Position) :
    (MT (q := q) σ a s pos).withPosition pos' = MT σ a s pos' := by cases a <;> simp [MT, ProofTree.withPosition]
@[simp] theorem MT_simulated (a : SigmaBoolean G) (s : Bool) (pos : Position) : (MT (q := q) σ a s pos).simulated = s := by
  cases a <;> simp [MT, ProofTree.simulated]
@[simp] theorem MT_isReal (a : SigmaBoolean G) (s : Bool) (pos : Position) : (MT (q := q) σ a s pos).isReal = !s := by
  simp [ProofTree.isReal]
@[simp] theorem MT_isUnproven (a : SigmaBoolean G) (s : Bool) (pos : Position) : (MT (q := q) σ a s pos).isUnproven = true := by
  cases a <;> simp [MT, ProofTree.isUnproven]

theorem MT_inj {a b : SigmaBoolean G} (ha : nontrivial a) (hb : nontrivial b) {s s' : Bool} {pos pos' : Position}
    (h : MT (q := q) σ a s pos = MT σ b s' pos') : a = b := by
  cases a <;> cases b <;> simp_all [MT, nontrivial]

theorem castToUnp_ok {cs : List (ProofTree G q)} (h : ∀ c ∈ cs, c.isUnproven = true) : castToUnp cs = .ok cs := by
  unfold castToUnp
  rw [if_pos (List.all_eq_true.2 h)]

theorem MTList_unproven : ∀ (l : List (SigmaBoolean G)), ∀ c ∈ MTList (q := q) σ l, c.isUnproven = true
  | [] => by simp [MTList]
  | a :: l => by
    intro c hc
    rcases List.mem_cons.1 hc with rfl | hc
    · simp
    · exact MTList_unproven l c hc

theorem MTList_any : ∀ (l : List (SigmaBoolean G)), (MTList (q := q) σ l).any ProofTree.simulated = !(holdsCount σ l == l.length)
  | [] => by simp [MTList, holdsCount]
  | a :: l => by
    have := SigmaBoolean.holdsCount_le σ l
    simp only [MTList, List.any_cons, MT_simulated, MTList_any l, holdsCount, List.length_cons]
    cases holds σ a
    · simp only [Bool.not_false, Bool.true_or, Bool.false_eq_true, if_false]
      rw [eq_comm, Bool.not_eq_true', beq_eq_false_iff_ne]; omega
    · simp only [Bool.not_true, Bool.false_or, if_true]
      congr 1
      rw [Bool.eq_iff_iff, beq_iff_eq, beq_iff_eq]; omega

theorem MTList_all : ∀ (l : List (SigmaBoolean G)), (MTList (q := q) σ l).all ProofTree.simulated = !(holdsCount σ l != 0)
  | [] => by simp [MTList, holdsCount]
  | a :: l => by
    simp only [MTList, List.all_cons, MT_simulated, MTList_all l, holdsCount]
    cases holds σ a
    · simp
    · simp only [Bool.not_true, Bool.false_and, if_true]
      rw [eq_comm, Bool.not_eq_false', bne_iff_ne]; omega

theorem MTList_countP : ∀ (l : List (SigmaBoolean G)), (MTList (q := q) σ l).countP ProofTree.isReal = holdsCount σ l
  | [] => by simp [MTList, holdsCount]
  | a :: l => by
    simp only [MTList, List.countP_cons, MT_isReal, MTList_countP l, holdsCount, Bool.not_not]
    omega

end

section
variable {G : Type} [DecidableEq G] {q : Nat} [AddCommGroup G] [Module (ZMod q) G]

/-- The statements for which the prover has a secret. -/
def secretsKnow (C : Curve G) (secrets : List (Secret G q)) : Assignment G where
  dlog h := secrets.any fun s => decide (s.image C = .dlog h)
  dht g h u v := secrets.any fun s => decide (s.image C = .dht g h u v)

variable (E : ProverEnv G q) (hh : E.hints = [])
include hh

mutual
theorem mark_ok : ∀ (sb : SigmaBoolean G), NoTrivial sb → ∃ t0 : ProofTree G q, convertToUnproven sb = .ok t0 ∧
    rewriteBu (markStep E) t0 =
      .ok (MT (secretsKnow E.curve E.secrets) sb (!holds (secretsKnow E.curve E.secrets) sb) cryptoTreePrefix)
  | .trivial _, h => h.elim
  | .dlog h, _ => by
    refine ⟨_, rfl, ?_⟩
    rw [rewriteBu, markStep, hh]; rfl
  | .dht g h u v, _ => by
    refine ⟨_, rfl, ?_⟩
    rw [rewriteBu, markStep, hh]; rfl
  | .cand items, h => by
    obtain ⟨ts, h1, h2⟩ := mark_okList items h
    refine ⟨_, by rw [convertToUnproven, h1]; rfl, ?_⟩
    rw [rewriteBu, h2, Outcome.bind_ok, markStep, castToUnp_ok (MTList_unproven _ _)]
    simp only [Outcome.bind_ok, Outcome.pure_eq, MTList_any]; rfl
  | .cor items, h => by
    obtain ⟨ts, h1, h2⟩ := mark_okList items h
    refine ⟨_, by rw [convertToUnproven, h1]; rfl, ?_⟩
    rw [rewriteBu, h2, Outcome.bind_ok, markStep, castToUnp_ok (MTList_unproven _ _)]
    simp only [Outcome.bind_ok, Outcome.pure_eq, MTList_all]; rfl
  | .cth k items, h => by
    obtain ⟨ts, h1, h2⟩ := mark_okList items h
    refine ⟨_, by rw [convertToUnproven, h1]; rfl, ?_⟩
    rw [rewriteBu, h2, Outcome.bind_ok, markStep, castToUnp_ok (MTList_unproven _ _)]
    simp only [Outcome.bind_ok, Outcome.pure_eq, MTList_countP, Option.getD_some, MT, holds, Outcome.ok.injEq, ProofTree.conj.injEq,
      and_true, true_and]
    rw [Bool.eq_iff_iff]; simp
theorem mark_okList : ∀ (l : List (SigmaBoolean G)), NoTrivialList l → ∃ ts : List (ProofTree G q), convertToUnprovenList l = .ok ts ∧
    rewriteBuList (markStep E) ts = .ok (MTList (secretsKnow E.curve E.secrets) l)
  | [], _ => ⟨[], rfl, rfl⟩
  | a :: l, h => by
    obtain ⟨t, h1, h2⟩ := mark_ok a h.1
    obtain ⟨ts, h3, h4⟩ := mark_okList l h.2
    refine ⟨t :: ts, by rw [convertToUnprovenList, h1, Outcome.bind_ok, h3]; rfl, ?_⟩
    rw [rewriteBuList, h2, Outcome.bind_ok, h4]; rfl
end

end

/-! ### Polishing -/

section
variable {G : Type} [DecidableEq G] {q : Nat} (σ : Assignment G)

mutual
/-- The tree after polishing, with the root's flag and challenge. -/
def Pol : SigmaBoolean G → Bool → Option Challenge → ProofTree G q → Prop
  | .trivial _, _, _, _ => False
  | .dlog h, s, e, t => (s = false → holds σ (.dlog h) = true) ∧ ∃ pos, t = .leaf (.dlog h) none none e s pos
  | .dht g h u v, s, e, t => (s = false → holds σ (.dht g h u v) = true) ∧ ∃ pos, t = .leaf (.dht g h u v) none none e s pos
  | .cand items, s, e, t => ∃ pos cs, t = .conj .and items e s pos cs ∧ PolList items (items.map fun _ => s) cs
  | .cor items, s, e, t => ∃ pos cs flags, t = .conj .or items e s pos cs ∧
      (s = true → ∀ f ∈ flags, f = true) ∧ (s = false → flags.count false = 1) ∧ PolList items flags cs
  | .cth k items, s, e, t => ∃ pos cs flags, t = .conj (.thr k none) items e s pos cs ∧
      (s = true → ∀ f ∈ flags, f = true) ∧ (s = false → flags.count false = k.toNat) ∧ PolList items flags cs
/-- Child by child; children have no challenge yet. -/
def PolList : List (SigmaBoolean G) → List Bool → List (ProofTree G q) → Prop
  | [], [], [] => True
  | a :: as, f :: fs, t :: ts => Pol a f none t ∧ PolList as fs ts
  | _, _, _ => False
end

/-- Children waiting to be polished. -/
def MTs : List (SigmaBoolean G) → List Bool → List (ProofTree G q) → Prop
  | [], [], [] => True
  | a :: as, f :: fs, t :: ts => (∃ pos, t = MT σ a f pos) ∧ (f = false → holds σ a = true) ∧ MTs as fs ts
  | _, _, _ => False

theorem MTs_unproven : ∀ (as : List (SigmaBoolean G)) (fs : List Bool) (ts : List (ProofTree G q)), MTs σ as fs ts →
    ∀ c ∈ ts, c.isUnproven = true
  | [], [], [], _ => by simp
  | a :: as, f :: fs, t :: ts, h => by
    intro c hc
    rcases List.mem_cons.1 hc with rfl | hc
    · obtain ⟨pos, rfl⟩ := h.1; simp
    · exact MTs_unproven as fs ts h.2.2 c hc
  | [], [], _ :: _, h => h.elim
  | [], _ :: _, _, h => h.elim
  | _ :: _, [], _, h => h.elim
  | _ :: _, _ :: _, [], h => h.elim

theorem MTs_positions : ∀ (as : List (SigmaBoolean G)) (fs : List Bool) (ts : List (ProofTree G q)) (p : Nat → Position),
    MTs σ as fs ts → MTs σ as fs (ts.mapIdx fun i c => c.withPosition (p i))
  | [], [], [], _, _ => trivial
  | a :: as, f :: fs, t :: ts, p, h => by
    obtain ⟨⟨pos, rfl⟩, h2, h3⟩ := h
    rw [List.mapIdx_cons]
    exact ⟨⟨p 0, by simp⟩, h2, MTs_positions as fs ts (fun i => p (i + 1)) h3⟩
  | [], [], _ :: _, _, h => h.elim
  | [], _ :: _, _, _, h => h.elim
  | _ :: _, [], _, _, h => h.elim
  | _ :: _, _ :: _, [], _, h => h.elim

theorem MTs_all_sim : ∀ (l : List (SigmaBoolean G)),
    MTs (q := q) σ l (l.map fun _ => true) ((MTList σ l).map (ProofTree.withSimulated true))
  | [] => trivial
  | a :: l => ⟨⟨cryptoTreePrefix, by simp⟩, by simp, MTs_all_sim l⟩

theorem MTs_all_real : ∀ (l : List (SigmaBoolean G)), (∀ a ∈ l, holds σ a = true) →
    MTs (q := q) σ l (l.map fun _ => false) (MTList σ l)
  | [], _ => trivial
  | a :: l, h => by
    refine ⟨⟨cryptoTreePrefix, ?_⟩, fun _ => h a (by simp), MTs_all_real l (fun b hb => h b (by simp [hb]))⟩
    rw [h a (by simp)]; rfl

theorem find_first : ∀ (l : List (SigmaBoolean G)), holdsCount σ l ≠ 0 →
    ∃ c ∈ l, holds σ c = true ∧ (MTList (q := q) σ l).find? ProofTree.isReal = some (MT σ c false cryptoTreePrefix)
  | [], h => absurd rfl h
  | a :: l, h => by
    rw [MTList, List.find?_cons]
    cases ha : holds σ a with
    | true => exact ⟨a, by simp, ha, by simp⟩
    | false =>
      obtain ⟨c, h1, h2, h3⟩ := find_first l (by simpa [holdsCount, ha] using h)
      exact ⟨c, by simp [h1], h2, by simpa using h3⟩

theorem MTs_or (c : SigmaBoolean G) (hc : nontrivial c) (hold : holds σ c = true) : ∀ (l : List (SigmaBoolean G)), (∀ a ∈ l, nontrivial a) →
    MTs (q := q) σ l (l.map fun a => !decide (a = c)) ((MTList σ l).map fun t =>
      if t.beq (MT σ c false cryptoTreePrefix) || t.simulated then t else t.withSimulated true)
  | [], _ => trivial
  | a :: l, h => by
    refine ⟨⟨cryptoTreePrefix, ?_⟩, ?_, MTs_or c hc hold l (fun b hb => h b (by simp [hb]))⟩
    · by_cases hac : a = c
      · subst hac
        have hb : (MT (q := q) σ a false cryptoTreePrefix).beq (MT σ a false cryptoTreePrefix) = true := (pbeq_iff _ _).2 rfl
        simp [hold, hb]
      · simp only [hac, decide_false, Bool.not_false]
        split
        · rename_i hx
          rw [Bool.or_eq_true, pbeq_iff, MT_simulated] at hx
          rcases hx with hx | hx
          · exact absurd (MT_inj σ (h a (by simp)) hc hx) hac
          · rw [hx]
        · simp
    · intro hf
      have : a = c := by simpa using hf
      rw [this]; exact hold

theorem count_or (c : SigmaBoolean G) : ∀ (l : List (SigmaBoolean G)), l.Nodup → c ∈ l →
    (l.map fun a => !decide (a = c)).count false = 1
  | a :: l, hn, hm => by
    rw [List.map_cons, List.count_cons]
    rw [List.nodup_cons] at hn
    by_cases hac : a = c
    · subst hac
      have : (l.map fun x => !decide (x = a)).count false = 0 := by
        rw [List.count_eq_zero]
        intro hx
        obtain ⟨b, hb, hb2⟩ := List.mem_map.1 hx
        have : b = a := by simpa using hb2
        exact hn.1 (this ▸ hb)
      simp [this]
    · have hm' : c ∈ l := by
        rcases List.mem_cons.1 hm with h | h
        · exact absurd h.symm hac
        · exact h
      simp [count_or c l hn.2 hm', hac]

/-- Flags after `keepReal`. -/
def keepFlags (k : Nat) : Nat → List (SigmaBoolean G) → List Bool
  | _, [] => []
  | count, c :: cs =>
    if holds σ c then decide (k < count + 1) :: keepFlags k (count + 1) cs else true :: keepFlags k count cs

theorem MTs_keep (k : Nat) : ∀ (l : List (SigmaBoolean G)) (count : Nat),
    MTs (q := q) σ l (keepFlags σ k count l) (keepReal k count (MTList σ l))
  | [], _ => trivial
  | a :: l, count => by
    rw [MTList, keepReal, keepFlags]
    cases ha : holds σ a with
    | true =>
      simp only [MT_isReal, Bool.not_true, Bool.not_false, if_true]
      refine ⟨⟨cryptoTreePrefix, ?_⟩, fun _ => ha, MTs_keep k l (count + 1)⟩
      by_cases hk : k < count + 1 <;> simp [hk]
    | false =>
      simp only [MT_isReal, Bool.not_false, Bool.not_true, Bool.false_eq_true, if_false]
      exact ⟨⟨cryptoTreePrefix, rfl⟩, by simp, MTs_keep k l count⟩

theorem keepFlags_count (k : Nat) : ∀ (l : List (SigmaBoolean G)) (count : Nat),
    (keepFlags σ k count l).count false = min (k - count) (holdsCount σ l)
  | [], count => by simp [keepFlags, holdsCount]
  | a :: l, count => by
    rw [keepFlags, holdsCount]
    cases ha : holds σ a with
    | true =>
      simp only [if_true, List.count_cons, keepFlags_count k l (count + 1)]
      by_cases hk : k < count + 1
      · simp [hk]; omega
      · simp [hk]; omega
    | false => simp [keepFlags_count k l count]

/-- The statement proved by induction for one proposition. -/
def PolishOk (sb : SigmaBoolean G) : Prop := ∀ (s : Bool) (pos : Position), (s = false → holds σ sb = true) →
  ∀ fuel, sbDepth sb ≤ fuel → ∃ t : ProofTree G q, rewriteTd polishStep fuel (MT σ sb s pos) = .ok t ∧ Pol σ sb s none t

theorem sbDepth_mem {l : List (SigmaBoolean G)} {a : SigmaBoolean G} (h : a ∈ l) : sbDepth a ≤ sbDepthList l := by
  induction l with
  | nil => cases h
  | cons b l ih =>
    rw [sbDepthList]
    rcases List.mem_cons.1 h with rfl | h
    · exact Nat.le_max_left _ _
    · exact Nat.le_trans (ih h) (Nat.le_max_right _ _)

theorem polish_list : ∀ (as : List (SigmaBoolean G)) (_ : ∀ a ∈ as, PolishOk (q := q) σ a) (fs : List Bool) (ts : List (ProofTree G q)),
    MTs σ as fs ts → ∀ fuel, sbDepthList as ≤ fuel →
    ∃ us : List (ProofTree G q), tryMap (rewriteTd polishStep fuel) ts = .ok us ∧ PolList σ as fs us
  | [], _, [], [], _, _, _ => ⟨[], rfl, trivial⟩
  | a :: as, ih, f :: fs, t :: ts, h, fuel, hf => by
    obtain ⟨⟨pos, rfl⟩, h2, h3⟩ := h
    rw [sbDepthList] at hf
    obtain ⟨u, h4, h5⟩ := ih a (by simp) f pos h2 fuel (by omega)
    obtain ⟨us, h6, h7⟩ := polish_list as (fun b hb => ih b (by simp [hb])) fs ts h3 fuel (by omega)
    exact ⟨u :: us, by rw [tryMap, h4, Outcome.bind_ok, h6]; rfl, h5, h7⟩
  | [], _, [], _ :: _, h, _, _ => h.elim
  | [], _, _ :: _, _, h, _, _ => h.elim
  | _ :: _, _, [], _, h, _, _ => h.elim
  | _ :: _, _, _ :: _, [], h, _, _ => h.elim

/-- Common part of the three connectives. -/
theorem polish_conj (items : List (SigmaBoolean G)) (ih : ∀ a ∈ items, PolishOk (q := q) σ a) (kind : PKind) (s : Bool) (pos : Position)
    (flags : List Bool) (marked : List (ProofTree G q)) (hm : polishChildren kind s (MTList σ items) = .ok marked)
    (hM : MTs σ items flags marked) (fuel : Nat) (hf : sbDepthList items ≤ fuel) :
    ∃ cs : List (ProofTree G q), rewriteTd polishStep (fuel + 1) (.conj kind items none s pos (MTList σ items)) =
      .ok (.conj kind items none s pos cs) ∧ PolList σ items flags cs := by
  have h1 := MTs_positions σ items flags marked (fun i => pos ++ [i]) hM
  obtain ⟨us, h2, h3⟩ := polish_list σ items ih flags _ h1 fuel hf
  refine ⟨us, ?_, h3⟩
  rw [rewriteTd, polishStep, castToUnp_ok (MTList_unproven σ items), Outcome.bind_ok, hm, Outcome.bind_ok]
  unfold setPositions
  rw [castToUnp_ok (MTs_unproven σ _ _ _ hM)]
  simp only [Outcome.bind_ok, Outcome.pure_eq, Option.getD_some, h2]

theorem noTrivialList_iff (l : List (SigmaBoolean G)) : NoTrivialList l ↔ ∀ a ∈ l, NoTrivial a := by
  induction l with
  | nil => simp [NoTrivialList]
  | cons a l ih => simp [NoTrivialList, ih]

theorem orDistinctList_iff (l : List (SigmaBoolean G)) : OrDistinctList l ↔ ∀ a ∈ l, OrDistinct a := by
  induction l with
  | nil => simp [OrDistinctList]
  | cons a l ih => simp [OrDistinctList, ih]

theorem nontrivial_of {a : SigmaBoolean G} (h : NoTrivial a) : nontrivial a := by
  cases a <;> simp_all [NoTrivial, nontrivial]

theorem polish_ok (sb : SigmaBoolean G) (hnt : NoTrivial sb) (hod : OrDistinct sb) : PolishOk (q := q) σ sb := by
  induction sb using SigmaBoolean.induct with
  | htriv b => exact hnt.elim
  | hdlog h =>
    intro s pos hs fuel hf
    cases fuel with
    | zero => simp [sbDepth] at hf
    | succ fuel => exact ⟨_, rfl, hs, pos, rfl⟩
  | hdht g h u v =>
    intro s pos hs fuel hf
    cases fuel with
    | zero => simp [sbDepth] at hf
    | succ fuel => exact ⟨_, rfl, hs, pos, rfl⟩
  | hcand items ih =>
    intro s pos hs fuel hf
    have hnt' := (noTrivialList_iff items).1 hnt
    have hod' := (orDistinctList_iff items).1 hod
    rw [sbDepth] at hf
    cases fuel with
    | zero => omega
    | succ fuel =>
      rw [MT]
      cases s with
      | true =>
        obtain ⟨cs, h1, h2⟩ := polish_conj σ items (fun a ha => ih a ha (hnt' a ha) (hod' a ha)) .and true pos _ _ rfl
          (MTs_all_sim σ items) fuel (by omega)
        exact ⟨_, h1, pos, cs, rfl, h2⟩
      | false =>
        have hall : ∀ a ∈ items, holds σ a = true := by
          have := hs rfl
          rw [holds, SigmaBoolean.holdsCount_all] at this
          exact this
        obtain ⟨cs, h1, h2⟩ := polish_conj σ items (fun a ha => ih a ha (hnt' a ha) (hod' a ha)) .and false pos _ _ rfl
          (MTs_all_real σ items hall) fuel (by omega)
        exact ⟨_, h1, pos, cs, rfl, h2⟩
  | hcor items ih =>
    intro s pos hs fuel hf
    have hnt' := (noTrivialList_iff items).1 hnt
    have hod' := (orDistinctList_iff items).1 hod.2
    rw [sbDepth] at hf
    cases fuel with
    | zero => omega
    | succ fuel =>
      rw [MT]
      cases s with
      | true =>
        obtain ⟨cs, h1, h2⟩ := polish_conj σ items (fun a ha => ih a ha (hnt' a ha) (hod' a ha)) .or true pos _ _ rfl
          (MTs_all_sim σ items) fuel (by omega)
        exact ⟨_, h1, pos, cs, _, rfl, by simp, by simp, h2⟩
      | false =>
        have hc : holdsCount σ items ≠ 0 := by
          have := hs rfl
          rwa [holds, bne_iff_ne] at this
        obtain ⟨c, c1, c2, c3⟩ := find_first (q := q) σ items hc
        have hm : polishChildren .or false (MTList (q := q) σ items) = .ok ((MTList σ items).map fun t =>
            if t.beq (MT σ c false cryptoTreePrefix) || t.simulated then t else t.withSimulated true) := by
          simp only [polishChildren, makeCorChildrenSimulated, castToUnp_ok (MTList_unproven σ items), Outcome.bind_ok, c3]
          rfl
        obtain ⟨cs, h1, h2⟩ := polish_conj σ items (fun a ha => ih a ha (hnt' a ha) (hod' a ha)) .or false pos _ _ hm
          (MTs_or σ c (nontrivial_of (hnt' c c1)) c2 items (fun a ha => nontrivial_of (hnt' a ha))) fuel (by omega)
        exact ⟨_, h1, pos, cs, _, rfl, by simp, fun _ => count_or c items hod.1 c1, h2⟩
  | hcth k items ih =>
    intro s pos hs fuel hf
    have hnt' := (noTrivialList_iff items).1 hnt
    have hod' := (orDistinctList_iff items).1 hod
    rw [sbDepth] at hf
    cases fuel with
    | zero => omega
    | succ fuel =>
      rw [MT]
      cases s with
      | true =>
        obtain ⟨cs, h1, h2⟩ := polish_conj σ items (fun a ha => ih a ha (hnt' a ha) (hod' a ha)) (.thr k none) true pos _ _ rfl
          (MTs_all_sim σ items) fuel (by omega)
        exact ⟨_, h1, pos, cs, _, rfl, by simp, by simp, h2⟩
      | false =>
        have hc : k.toNat ≤ holdsCount σ items := by
          have := hs rfl
          rwa [holds, decide_eq_true_eq] at this
        obtain ⟨cs, h1, h2⟩ := polish_conj σ items (fun a ha => ih a ha (hnt' a ha) (hod' a ha)) (.thr k none) false pos _ _ rfl
          (MTs_keep σ k.toNat items 0) fuel (by omega)
        exact ⟨_, h1, pos, cs, _, rfl, by simp, fun _ => by rw [keepFlags_count]; omega, h2⟩

end

end Verif.Sigma
