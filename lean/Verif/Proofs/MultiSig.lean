import Verif.Spec.MultiSig
import Verif.Proofs.ProverFinish

set_option linter.unusedSimpArgs false
set_option linter.unusedVariables false

/-! The prover on AND propositions with hints. -/

namespace Verif.Sigma
open Verif Verif.Spec

section
variable {G : Type} {q : Nat}

theorem andOnlyList_iff (l : List (SigmaBoolean G)) : AndOnlyList l ↔ ∀ a ∈ l, AndOnly a := by
  induction l with
  | nil => simp [AndOnlyList]
  | cons a l ih => simp [AndOnlyList, ih]

/-! ### Positions -/

mutual
/-- Positions of leaves extend the position of the root, and determine the leaf. -/
theorem leavesAt_prefix : ∀ (a : SigmaBoolean G) (pos : Position), ∀ x ∈ leavesAt a pos, ∃ y, x.2 = pos ++ y
  | .trivial _, _ => by simp [leavesAt]
  | .dlog _, _ => by simp [leavesAt]
  | .dht _ _ _ _, _ => by simp [leavesAt]
  | .cand l, pos => fun x hx => by
    obtain ⟨j, y, _, h⟩ := leavesAtList_prefix l pos 0 x hx; exact ⟨_, h⟩
  | .cor l, pos => fun x hx => by
    obtain ⟨j, y, _, h⟩ := leavesAtList_prefix l pos 0 x hx; exact ⟨_, h⟩
  | .cth _ l, pos => fun x hx => by
    obtain ⟨j, y, _, h⟩ := leavesAtList_prefix l pos 0 x hx; exact ⟨_, h⟩
theorem leavesAtList_prefix : ∀ (l : List (SigmaBoolean G)) (pos : Position) (i : Nat), ∀ x ∈ leavesAtList l pos i,
    ∃ j y, i ≤ j ∧ x.2 = pos ++ (j :: y)
  | [], _, _ => by simp [leavesAtList]
  | a :: l, pos, i => fun x hx => by
    rw [leavesAtList] at hx
    rcases List.mem_append.1 hx with hx | hx
    · obtain ⟨y, h⟩ := leavesAt_prefix a (pos ++ [i]) x hx
      exact ⟨i, y, Nat.le_refl i, by rw [h]; simp⟩
    · obtain ⟨j, y, hj, h⟩ := leavesAtList_prefix l pos (i + 1) x hx
      exact ⟨j, y, by omega, h⟩
end

mutual
theorem leavesAt_unique : ∀ (a : SigmaBoolean G) (pos : Position), ((leavesAt a pos).map Prod.snd).Nodup
  | .trivial _, _ => by simp [leavesAt]
  | .dlog _, _ => by simp [leavesAt]
  | .dht _ _ _ _, _ => by simp [leavesAt]
  | .cand l, pos => leavesAtList_unique l pos 0
  | .cor l, pos => leavesAtList_unique l pos 0
  | .cth _ l, pos => leavesAtList_unique l pos 0
theorem leavesAtList_unique : ∀ (l : List (SigmaBoolean G)) (pos : Position) (i : Nat), ((leavesAtList l pos i).map Prod.snd).Nodup
  | [], _, _ => by simp [leavesAtList]
  | a :: l, pos, i => by
    rw [leavesAtList, List.map_append, List.nodup_append]
    refine ⟨leavesAt_unique a _, leavesAtList_unique l _ _, ?_⟩
    intro x hx y hy hxy
    obtain ⟨u, hu, rfl⟩ := List.mem_map.1 hx
    obtain ⟨v, hv, hvy⟩ := List.mem_map.1 hy
    obtain ⟨y1, h1⟩ := leavesAt_prefix a _ u hu
    obtain ⟨j, y2, hj, h2⟩ := leavesAtList_prefix l pos (i + 1) v hv
    rw [← hvy, h1, h2, List.append_assoc] at hxy
    have := List.append_cancel_left hxy
    simp only [List.cons_append, List.nil_append, List.cons.injEq] at this
    omega
end

theorem eq_of_pos {l : List (LeafProp G × Position)} (h : (l.map Prod.snd).Nodup) {x y : LeafProp G × Position} (hx : x ∈ l)
    (hy : y ∈ l) (hp : x.2 = y.2) : x = y := by
  induction l with
  | nil => cases hx
  | cons a l ih =>
    rw [List.map_cons, List.nodup_cons] at h
    rcases List.mem_cons.1 hx with hxa | hxl <;> rcases List.mem_cons.1 hy with hya | hyl
    · rw [hxa, hya]
    · exact absurd (List.mem_map.2 ⟨y, hyl, by rw [← hp, hxa]⟩) h.1
    · exact absurd (List.mem_map.2 ⟨x, hxl, by rw [hp, hya]⟩) h.1
    · exact ih h.2 hxl hyl

/-- A search by position finds the value all entries at that position have. -/
theorem findPos_of_all {α : Type} {l : List (Position × α)} {pos : Position} {a : α} (hm : (pos, a) ∈ l)
    (hu : ∀ b, (pos, b) ∈ l → b = a) : findPos l pos = some a := by
  unfold findPos
  cases hf : l.find? (fun x => decide (x.1 = pos)) with
  | none =>
    have := List.find?_eq_none.1 hf _ hm
    simp at this
  | some x =>
    have h1 := List.mem_of_find?_eq_some hf
    have h2 := List.find?_some hf
    simp only [decide_eq_true_eq] at h2
    obtain ⟨xp, xa⟩ := x
    simp only at h2
    subst h2
    rw [Option.map_some, hu xa h1]

theorem findPos_none {α : Type} {l : List (Position × α)} {pos : Position} (h : ∀ b, (pos, b) ∉ l) : findPos l pos = none := by
  unfold findPos
  rw [Option.map_eq_none_iff, List.find?_eq_none]
  rintro ⟨p, a⟩ hm
  simp only [decide_eq_true_eq]
  rintro rfl
  exact h a hm

/-! ### Trees of an AND proposition -/

mutual
/-- The proof tree of an AND proposition with leaves made by `f`. -/
def AT (f : LeafProp G → Position → ProofTree G q) (ch : Option Challenge) : SigmaBoolean G → Position → ProofTree G q
  | .dlog h, pos => f (.dlog h) pos
  | .dht g h u v, pos => f (.dht g h u v) pos
  | .cand l, pos => .conj .and l ch false pos (ATList f ch l pos 0)
  | _, pos => .conj .and [] none false pos []
/-- Children from number `i` on. -/
def ATList (f : LeafProp G → Position → ProofTree G q) (ch : Option Challenge) : List (SigmaBoolean G) → Position → Nat → List (ProofTree G q)
  | [], _, _ => []
  | a :: l, pos, i => AT f ch a (pos ++ [i]) :: ATList f ch l pos (i + 1)
end

mutual
/-- The same before positions are set. -/
def T0 : SigmaBoolean G → Position → ProofTree G q
  | .dlog h, pos => .leaf (.dlog h) none none none false pos
  | .dht g h u v, pos => .leaf (.dht g h u v) none none none false pos
  | .cand l, pos => .conj .and l none false pos (T0List l)
  | _, pos => .conj .and [] none false pos []
def T0List : List (SigmaBoolean G) → List (ProofTree G q)
  | [] => []
  | a :: l => T0 a cryptoTreePrefix :: T0List l
end

mutual
/-- The finished tree: commitments `m`, one challenge, responses `z`. -/
def UT (m : LeafProp G → Position → Option (Msg G)) (e : Challenge) (z : Position → ZMod q) : SigmaBoolean G → Position → Unchecked G q
  | .dlog h, pos => .leaf (.dlog h) (m (.dlog h) pos) e (z pos)
  | .dht g h u v, pos => .leaf (.dht g h u v) (m (.dht g h u v) pos) e (z pos)
  | .cand l, pos => .conj .and e (UTList m e z l pos 0)
  | _, _ => .conj .and e []
def UTList (m : LeafProp G → Position → Option (Msg G)) (e : Challenge) (z : Position → ZMod q) :
    List (SigmaBoolean G) → Position → Nat → List (Unchecked G q)
  | [], _, _ => []
  | a :: l, pos, i => UT m e z a (pos ++ [i]) :: UTList m e z l pos (i + 1)
end

theorem UT_challenge (m : LeafProp G → Position → Option (Msg G)) (e : Challenge) (z : Position → ZMod q) (a : SigmaBoolean G) (pos : Position) :
    (UT m e z a pos).challenge = e := by cases a <;> rfl

theorem UTList_challenge (m : LeafProp G → Position → Option (Msg G)) (e : Challenge) (z : Position → ZMod q) :
    ∀ (l : List (SigmaBoolean G)) (pos : Position) (i : Nat), ∀ c ∈ UTList m e z l pos i, c.challenge = e
  | [], _, _ => by simp [UTList]
  | a :: l, pos, i => fun c hc => by
    rw [UTList] at hc
    rcases List.mem_cons.1 hc with rfl | hc
    · exact UT_challenge m e z a _
    · exact UTList_challenge m e z l pos (i + 1) c hc

mutual
theorem UT_consistent (m : LeafProp G → Position → Option (Msg G)) (e : Challenge) (z : Position → ZMod q) :
    ∀ (a : SigmaBoolean G) (pos : Position), AndOnly a → Consistent a (UT m e z a pos)
  | .trivial _, _, h => h.elim
  | .dlog _, _, _ => rfl
  | .dht _ _ _ _, _, _ => rfl
  | .cor _, _, h => h.elim
  | .cth _ _, _, h => h.elim
  | .cand l, pos, h => ⟨UTList_challenge m e z l pos 0, UTList_consistent m e z l pos 0 h⟩
theorem UTList_consistent (m : LeafProp G → Position → Option (Msg G)) (e : Challenge) (z : Position → ZMod q) :
    ∀ (l : List (SigmaBoolean G)) (pos : Position) (i : Nat), AndOnlyList l → ConsistentList l (UTList m e z l pos i)
  | [], _, _, _ => trivial
  | a :: l, pos, i, h => ⟨UT_consistent m e z a _ h.1, UTList_consistent m e z l pos (i + 1) h.2⟩
end

mutual
theorem UT_clear (m : LeafProp G → Position → Option (Msg G)) (e : Challenge) (z : Position → ZMod q) :
    ∀ (a : SigmaBoolean G) (pos : Position), clearCommitments (UT m e z a pos) = UT (fun _ _ => none) e z a pos
  | .trivial _, _ => rfl
  | .dlog _, _ => rfl
  | .dht _ _ _ _, _ => rfl
  | .cor _, _ => rfl
  | .cth _ _, _ => rfl
  | .cand l, pos => by rw [UT, UT, clearCommitments, UTList_clear m e z l pos 0]
theorem UTList_clear (m : LeafProp G → Position → Option (Msg G)) (e : Challenge) (z : Position → ZMod q) :
    ∀ (l : List (SigmaBoolean G)) (pos : Position) (i : Nat),
      clearCommitmentsList (UTList m e z l pos i) = UTList (fun _ _ => none) e z l pos i
  | [], _, _ => rfl
  | a :: l, pos, i => by rw [UTList, UTList, clearCommitmentsList, UT_clear m e z a, UTList_clear m e z l pos (i + 1)]
end

section
variable [DecidableEq G] [AddCommGroup G] [Module (ZMod q) G]

mutual
theorem UT_compute (C : Curve G) (m : LeafProp G → Position → Option (Msg G)) (e : Challenge) (z : Position → ZMod q) :
    ∀ (a : SigmaBoolean G) (pos : Position), computeCommitments C (UT m e z a pos) =
      UT (fun p pos => some (computeCommitment C p e (z pos))) e z a pos
  | .trivial _, _ => rfl
  | .dlog _, _ => rfl
  | .dht _ _ _ _, _ => rfl
  | .cor _, _ => rfl
  | .cth _ _, _ => rfl
  | .cand l, pos => by rw [UT, UT, computeCommitments, UTList_compute C m e z l pos 0]
theorem UTList_compute (C : Curve G) (m : LeafProp G → Position → Option (Msg G)) (e : Challenge) (z : Position → ZMod q) :
    ∀ (l : List (SigmaBoolean G)) (pos : Position) (i : Nat), computeCommitmentsList C (UTList m e z l pos i) =
      UTList (fun p pos => some (computeCommitment C p e (z pos))) e z l pos i
  | [], _, _ => rfl
  | a :: l, pos, i => by rw [UTList, UTList, computeCommitmentsList, UT_compute C m e z a, UTList_compute C m e z l pos (i + 1)]
end

mutual
theorem UT_valid (C : Curve G) (m : LeafProp G → Position → Option (Msg G)) (e : Challenge) (z : Position → ZMod q) :
    ∀ (a : SigmaBoolean G) (pos : Position), AndOnly a →
      (∀ x ∈ leavesAt a pos, ∃ c, m x.1 x.2 = some c ∧ LeafValid C.gen x.1 c e (z x.2)) → AllValid C.gen (UT m e z a pos)
  | .trivial _, _, h, _ => h.elim
  | .dlog h, pos, _, hv => hv (.dlog h, pos) (by simp [leavesAt])
  | .dht g h u v, pos, _, hv => hv (.dht g h u v, pos) (by simp [leavesAt])
  | .cor _, _, h, _ => h.elim
  | .cth _ _, _, h, _ => h.elim
  | .cand l, pos, h, hv => UTList_valid C m e z l pos 0 h hv
theorem UTList_valid (C : Curve G) (m : LeafProp G → Position → Option (Msg G)) (e : Challenge) (z : Position → ZMod q) :
    ∀ (l : List (SigmaBoolean G)) (pos : Position) (i : Nat), AndOnlyList l →
      (∀ x ∈ leavesAtList l pos i, ∃ c, m x.1 x.2 = some c ∧ LeafValid C.gen x.1 c e (z x.2)) → AllValidList C.gen (UTList m e z l pos i)
  | [], _, _, _, _ => trivial
  | a :: l, pos, i, h, hv =>
    ⟨UT_valid C m e z a _ h.1 (fun x hx => hv x (by rw [leavesAtList]; exact List.mem_append_left _ hx)),
     UTList_valid C m e z l pos (i + 1) h.2 (fun x hx => hv x (by rw [leavesAtList]; exact List.mem_append_right _ hx))⟩
end

/-! ### The passes of the prover -/

mutual
theorem T0_convert : ∀ (a : SigmaBoolean G), AndOnly a → convertToUnproven a = .ok (T0 (q := q) a cryptoTreePrefix)
  | .trivial _, h => h.elim
  | .dlog _, _ => rfl
  | .dht _ _ _ _, _ => rfl
  | .cor _, h => h.elim
  | .cth _ _, h => h.elim
  | .cand l, h => by rw [convertToUnproven, T0List_convert l h]; rfl
theorem T0List_convert : ∀ (l : List (SigmaBoolean G)), AndOnlyList l → convertToUnprovenList l = .ok (T0List (q := q) l)
  | [], _ => rfl
  | a :: l, h => by rw [convertToUnprovenList, T0_convert a h.1, T0List_convert l h.2]; rfl
end

theorem T0_isUnproven (a : SigmaBoolean G) (pos : Position) : (T0 (q := q) a pos).isUnproven = true := by cases a <;> rfl
theorem T0_simulated (a : SigmaBoolean G) (pos : Position) : (T0 (q := q) a pos).simulated = false := by cases a <;> rfl
theorem T0_withPosition (a : SigmaBoolean G) (pos pos' : Position) : (T0 (q := q) a pos).withPosition pos' = T0 a pos' := by
  cases a <;> simp [T0, ProofTree.withPosition]

theorem T0List_all : ∀ (l : List (SigmaBoolean G)), ∀ c ∈ T0List (q := q) l, c.isUnproven = true ∧ c.simulated = false
  | [] => by simp [T0List]
  | a :: l => fun c hc => by
    rw [T0List] at hc
    rcases List.mem_cons.1 hc with rfl | hc
    · exact ⟨T0_isUnproven a _, T0_simulated a _⟩
    · exact T0List_all l c hc

variable (E : ProverEnv G q)

/-- The leaf counts as known: by a secret or by a hint. -/
def KnownLeaf (p : LeafProp G) : Prop :=
  ((hintRealImages E.hints).any (fun i => i.beq p.toSB) || E.secrets.any (fun s => decide (s.image E.curve = p))) = true

mutual
theorem T0_mark : ∀ (a : SigmaBoolean G) (pos pos' : Position), AndOnly a → (∀ x ∈ leavesAt a pos', KnownLeaf E x.1) →
    rewriteBu (markStep E) (T0 a pos) = .ok (T0 a pos)
  | .trivial _, _, _, h, _ => h.elim
  | .dlog h, pos, pos', _, hk => by
    have := hk (.dlog h, pos') (by simp [leavesAt])
    unfold KnownLeaf at this
    simp only at this
    rw [T0, rewriteBu, markStep]
    simp only [this, Outcome.bind_ok, Option.getD_some, ProofTree.withSimulated, Bool.not_true, Outcome.pure_eq]
  | .dht g h u v, pos, pos', _, hk => by
    have := hk (.dht g h u v, pos') (by simp [leavesAt])
    unfold KnownLeaf at this
    simp only at this
    rw [T0, rewriteBu, markStep]
    simp only [this, Outcome.bind_ok, Option.getD_some, ProofTree.withSimulated, Bool.not_true, Outcome.pure_eq]
  | .cor _, _, _, h, _ => h.elim
  | .cth _ _, _, _, h, _ => h.elim
  | .cand l, pos, pos', h, hk => by
    have hs : (T0List (q := q) l).any ProofTree.simulated = false := by
      rw [List.any_eq_false]
      intro c hc
      simp [(T0List_all l c hc).2]
    rw [T0, rewriteBu, T0List_mark l pos' 0 h hk, Outcome.bind_ok, markStep, castToUnp_ok (fun c hc => (T0List_all l c hc).1),
      Outcome.bind_ok, hs]
    rfl
theorem T0List_mark : ∀ (l : List (SigmaBoolean G)) (pos' : Position) (i : Nat), AndOnlyList l →
    (∀ x ∈ leavesAtList l pos' i, KnownLeaf E x.1) → rewriteBuList (markStep E) (T0List l) = .ok (T0List l)
  | [], _, _, _, _ => rfl
  | a :: l, pos', i, h, hk => by
    rw [T0List, rewriteBuList,
      T0_mark a _ (pos' ++ [i]) h.1 (fun x hx => hk x (by rw [leavesAtList]; exact List.mem_append_left _ hx)), Outcome.bind_ok,
      T0List_mark l pos' (i + 1) h.2 (fun x hx => hk x (by rw [leavesAtList]; exact List.mem_append_right _ hx))]
    rfl
end

/-- Leaves after setting positions. -/
def f3 (p : LeafProp G) (pos : Position) : ProofTree G q := .leaf p none none none false pos

/-- Children placed. -/
def placed : List (SigmaBoolean G) → Position → Nat → List (ProofTree G q)
  | [], _, _ => []
  | a :: l, pos, i => T0 a (pos ++ [i]) :: placed l pos (i + 1)

theorem mapIdx_placed : ∀ (l : List (SigmaBoolean G)) (pos : Position) (n : Nat),
    (T0List (q := q) l).mapIdx (fun i c => c.withPosition (pos ++ [i + n])) = placed l pos n
  | [], _, _ => rfl
  | a :: l, pos, n => by
    rw [T0List, List.mapIdx_cons, placed, T0_withPosition]
    have := mapIdx_placed l pos (n + 1)
    rw [← this]
    simp only [Nat.zero_add]
    congr 1
    apply List.ext_getElem
    · simp
    · intro i h1 h2
      simp only [List.getElem_mapIdx]
      rw [show i + 1 + n = i + (n + 1) by omega]

mutual
theorem polish_and : ∀ (a : SigmaBoolean G) (pos : Position), AndOnly a → ∀ fuel, sbDepth a ≤ fuel →
    rewriteTd polishStep fuel (T0 a pos) = .ok (AT (q := q) f3 none a pos)
  | .trivial _, _, h, _, _ => h.elim
  | .dlog h, pos, _, 0, hf => by simp [sbDepth] at hf
  | .dlog h, pos, _, n + 1, hf => rfl
  | .dht g h u v, pos, _, 0, hf => by simp [sbDepth] at hf
  | .dht g h u v, pos, _, n + 1, hf => rfl
  | .cor _, _, h, _, _ => h.elim
  | .cth _ _, _, h, _, _ => h.elim
  | .cand l, pos, h, 0, hf => by simp [sbDepth] at hf
  | .cand l, pos, h, n + 1, hf => by
    rw [sbDepth] at hf
    have hcast : castToUnp (T0List (q := q) l) = .ok (T0List l) := castToUnp_ok (fun c hc => (T0List_all l c hc).1)
    have hstep : polishStep (T0 (q := q) (.cand l) pos) = .ok (some (.conj .and l none false pos (placed l pos 0))) := by
      rw [T0, polishStep, hcast]
      simp only [Outcome.bind_ok, polishChildren, setPositions, hcast, Bool.false_eq_true, if_false, Outcome.pure_eq]
      rw [← mapIdx_placed l pos 0]
      rfl
    rw [rewriteTd, hstep]
    simp only [Outcome.bind_ok, Option.getD_some]
    rw [polish_andList l pos 0 h n (by omega)]
    rfl
theorem polish_andList : ∀ (l : List (SigmaBoolean G)) (pos : Position) (i : Nat), AndOnlyList l → ∀ fuel, sbDepthList l ≤ fuel →
    tryMap (rewriteTd polishStep fuel) (placed l pos i) = .ok (ATList (q := q) f3 none l pos i)
  | [], _, _, _, _, _ => rfl
  | a :: l, pos, i, h, fuel, hf => by
    rw [sbDepthList] at hf
    rw [placed, tryMap, polish_and a _ h.1 fuel (by omega), Outcome.bind_ok, polish_andList l pos (i + 1) h.2 fuel (by omega)]
    rfl
end

/-- Leaves with commitments. -/
def f6 (cm : LeafProp G → Position → Msg G) (rr : Position → Option (ZMod q)) (p : LeafProp G) (pos : Position) : ProofTree G q :=
  .leaf p (some (cm p pos)) (rr pos) none false pos

variable (cm : LeafProp G → Position → Msg G) (rr : Position → Option (ZMod q))

mutual
theorem commit_and : ∀ (a : SigmaBoolean G) (pos : Position), AndOnly a →
    (∀ x ∈ leavesAt a pos, step5 E x.1 none none false x.2 = .ok (some (f6 cm rr x.1 x.2))) → ∀ fuel, sbDepth a ≤ fuel →
    rewriteTd (commitStep E) fuel (AT f3 none a pos) = .ok (AT (f6 cm rr) none a pos)
  | .trivial _, _, h, _, _, _ => h.elim
  | .dlog h, pos, _, _, 0, hf => by simp [sbDepth] at hf
  | .dlog h, pos, _, h5, n + 1, hf => by
    have := h5 (.dlog h, pos) (by simp [leavesAt])
    rw [AT, f3, rewriteTd, commitStep, this]
    rfl
  | .dht g h u v, pos, _, _, 0, hf => by simp [sbDepth] at hf
  | .dht g h u v, pos, _, h5, n + 1, hf => by
    have := h5 (.dht g h u v, pos) (by simp [leavesAt])
    rw [AT, f3, rewriteTd, commitStep, this]
    rfl
  | .cor _, _, h, _, _, _ => h.elim
  | .cth _ _, _, h, _, _, _ => h.elim
  | .cand l, pos, h, _, 0, hf => by simp [sbDepth] at hf
  | .cand l, pos, h, h5, n + 1, hf => by
    rw [sbDepth] at hf
    rw [AT, rewriteTd, commitStep]
    simp only [Bool.not_false, if_true, Outcome.bind_ok, Option.getD_none]
    rw [commit_andList l pos 0 h h5 n (by omega)]
    rfl
theorem commit_andList : ∀ (l : List (SigmaBoolean G)) (pos : Position) (i : Nat), AndOnlyList l →
    (∀ x ∈ leavesAtList l pos i, step5 E x.1 none none false x.2 = .ok (some (f6 cm rr x.1 x.2))) → ∀ fuel, sbDepthList l ≤ fuel →
    tryMap (rewriteTd (commitStep E) fuel) (ATList f3 none l pos i) = .ok (ATList (f6 cm rr) none l pos i)
  | [], _, _, _, _, _, _ => rfl
  | a :: l, pos, i, h, h5, fuel, hf => by
    rw [sbDepthList] at hf
    rw [ATList, tryMap, commit_and a _ h.1 (fun x hx => h5 x (by rw [leavesAtList]; exact List.mem_append_left _ hx)) fuel (by omega),
      Outcome.bind_ok, commit_andList l pos (i + 1) h.2 (fun x hx => h5 x (by rw [leavesAtList]; exact List.mem_append_right _ hx)) fuel
      (by omega)]
    rfl
end

mutual
theorem fs_and (pc : PointCodec G) (e : Challenge) (z : Position → ZMod q) : ∀ (a : SigmaBoolean G) (pos : Position),
    AndOnly a → fsProof pc (AT (f6 cm rr) none a pos) = fsUnchecked pc (UT (fun p pos => some (cm p pos)) e z a pos)
  | .trivial _, _, h => h.elim
  | .dlog h, pos, _ => rfl
  | .dht g h u v, pos, _ => rfl
  | .cor _, _, h => h.elim
  | .cth _ _, _, h => h.elim
  | .cand l, pos, h => by
    have hl : ∀ (l : List (SigmaBoolean G)) (i : Nat), (ATList (f6 cm rr) none l pos i).length = l.length := by
      intro l; induction l with
      | nil => intro i; rfl
      | cons a l ih => intro i; rw [ATList, List.length_cons, ih, List.length_cons]
    have hu : ∀ (l : List (SigmaBoolean G)) (i : Nat), (UTList (fun p pos => some (cm p pos)) e z l pos i).length = l.length := by
      intro l; induction l with
      | nil => intro i; rfl
      | cons a l ih => intro i; rw [UTList, List.length_cons, ih, List.length_cons]
    rw [AT, UT, fsProof, fsUnchecked, fs_andList pc e z l pos 0 h, hl, hu]
    rfl
theorem fs_andList (pc : PointCodec G) (e : Challenge) (z : Position → ZMod q) : ∀ (l : List (SigmaBoolean G)) (pos : Position) (i : Nat),
    AndOnlyList l → fsProofList pc (ATList (f6 cm rr) none l pos i) = fsUncheckedList pc (UTList (fun p pos => some (cm p pos)) e z l pos i)
  | [], _, _, _ => rfl
  | a :: l, pos, i, h => by
    rw [ATList, UTList, fsProofList, fsUncheckedList, fs_and pc e z a _ h.1, fs_andList pc e z l pos (i + 1) h.2]
end

/-- Finished leaves. -/
def f9 (e : Challenge) (z : Position → ZMod q) (p : LeafProp G) (pos : Position) : ProofTree G q := .unchecked (.leaf p none e (z pos))

mutual
theorem proving_and (e : Challenge) (z : Position → ZMod q) : ∀ (a : SigmaBoolean G) (pos : Position), AndOnly a →
    (∀ x ∈ leavesAt a pos, step9Response E x.1 (rr x.2) e x.2 = .ok (z x.2)) → ∀ fuel, sbDepth a ≤ fuel →
    rewriteTd (provingStep E) fuel ((AT (f6 cm rr) none a pos).withChallenge e) = .ok (AT (f9 e z) (some e) a pos)
  | .trivial _, _, h, _, _, _ => h.elim
  | .dlog h, pos, _, _, 0, hf => by simp [sbDepth] at hf
  | .dlog h, pos, _, h9, n + 1, hf => by
    have := h9 (.dlog h, pos) (by simp [leavesAt])
    rw [AT, f6, ProofTree.withChallenge, rewriteTd, provingStep]
    simp only [Bool.not_false, if_true, step9Leaf, this, Outcome.bind_ok, Outcome.pure_eq, Option.getD_some]
    rfl
  | .dht g h u v, pos, _, _, 0, hf => by simp [sbDepth] at hf
  | .dht g h u v, pos, _, h9, n + 1, hf => by
    have := h9 (.dht g h u v, pos) (by simp [leavesAt])
    rw [AT, f6, ProofTree.withChallenge, rewriteTd, provingStep]
    simp only [Bool.not_false, if_true, step9Leaf, this, Outcome.bind_ok, Outcome.pure_eq, Option.getD_some]
    rfl
  | .cor _, _, h, _, _, _ => h.elim
  | .cth _ _, _, h, _, _, _ => h.elim
  | .cand l, pos, h, _, 0, hf => by simp [sbDepth] at hf
  | .cand l, pos, h, h9, n + 1, hf => by
    rw [sbDepth] at hf
    rw [AT, ProofTree.withChallenge, rewriteTd, provingStep]
    simp only [Bool.false_eq_true, if_false, Outcome.bind_ok, Option.getD_some]
    rw [proving_andList e z l pos 0 h h9 n (by omega)]
    rfl
theorem proving_andList (e : Challenge) (z : Position → ZMod q) : ∀ (l : List (SigmaBoolean G)) (pos : Position) (i : Nat), AndOnlyList l →
    (∀ x ∈ leavesAtList l pos i, step9Response E x.1 (rr x.2) e x.2 = .ok (z x.2)) → ∀ fuel, sbDepthList l ≤ fuel →
    tryMap (rewriteTd (provingStep E) fuel) ((ATList (f6 cm rr) none l pos i).map (ProofTree.withChallenge e)) =
      .ok (ATList (f9 e z) (some e) l pos i)
  | [], _, _, _, _, _, _ => rfl
  | a :: l, pos, i, h, h9, fuel, hf => by
    rw [sbDepthList] at hf
    rw [ATList, List.map_cons, tryMap,
      proving_and e z a _ h.1 (fun x hx => h9 x (by rw [leavesAtList]; exact List.mem_append_left _ hx)) fuel (by omega),
      Outcome.bind_ok, proving_andList e z l pos (i + 1) h.2 (fun x hx => h9 x (by rw [leavesAtList]; exact List.mem_append_right _ hx)) fuel
      (by omega)]
    rfl
end

mutual
theorem uncheck_and (e : Challenge) (z : Position → ZMod q) : ∀ (a : SigmaBoolean G) (pos : Position), AndOnly a →
    convertToUnchecked (AT (f9 e z) (some e) a pos) = .ok (UT (fun _ _ => none) e z a pos)
  | .trivial _, _, h => h.elim
  | .dlog h, pos, _ => rfl
  | .dht g h u v, pos, _ => rfl
  | .cor _, _, h => h.elim
  | .cth _ _, _, h => h.elim
  | .cand l, pos, h => by
    rw [AT, UT, convertToUnchecked, uncheck_andList e z l pos 0 h]
    rfl
theorem uncheck_andList (e : Challenge) (z : Position → ZMod q) : ∀ (l : List (SigmaBoolean G)) (pos : Position) (i : Nat), AndOnlyList l →
    convertToUncheckedList (ATList (f9 e z) (some e) l pos i) = .ok (UTList (fun _ _ => none) e z l pos i)
  | [], _, _, _ => rfl
  | a :: l, pos, i, h => by
    rw [ATList, UTList, convertToUncheckedList, uncheck_and e z a _ h.1, Outcome.bind_ok, uncheck_andList e z l pos (i + 1) h.2]
    rfl
end

mutual
theorem fs_total (pc : PointCodec G) (e : Challenge) (z : Position → ZMod q) : ∀ (a : SigmaBoolean G) (pos : Position), AndOnly a →
    ∃ bs, fsUnchecked pc (UT (fun p pos => some (cm p pos)) e z a pos) = .ok bs
  | .trivial _, _, h => h.elim
  | .dlog h, pos, _ => ⟨_, rfl⟩
  | .dht g h u v, pos, _ => ⟨_, rfl⟩
  | .cor _, _, h => h.elim
  | .cth _ _, _, h => h.elim
  | .cand l, pos, h => by
    obtain ⟨bs, hb⟩ := fs_totalList pc e z l pos 0 h
    exact ⟨_, by rw [UT, fsUnchecked, hb]; rfl⟩
theorem fs_totalList (pc : PointCodec G) (e : Challenge) (z : Position → ZMod q) : ∀ (l : List (SigmaBoolean G)) (pos : Position) (i : Nat),
    AndOnlyList l → ∃ bs, fsUncheckedList pc (UTList (fun p pos => some (cm p pos)) e z l pos i) = .ok bs
  | [], _, _, _ => ⟨_, rfl⟩
  | a :: l, pos, i, h => by
    obtain ⟨b, h1⟩ := fs_total pc e z a (pos ++ [i]) h.1
    obtain ⟨bs, h2⟩ := fs_totalList pc e z l pos (i + 1) h.2
    exact ⟨b ++ bs, by rw [UTList, fsUncheckedList, h1, Outcome.bind_ok, h2]; rfl⟩
end

/-- The challenge bytes do not depend on challenge and responses. -/
theorem fs_indep (pc : PointCodec G) (e e' : Challenge) (z z' : Position → ZMod q) (a : SigmaBoolean G) (pos : Position) (h : AndOnly a) :
    fsUnchecked pc (UT (fun p pos => some (cm p pos)) e z a pos) = fsUnchecked pc (UT (fun p pos => some (cm p pos)) e' z' a pos) := by
  rw [← fs_and cm (fun _ => none) pc e z a pos h, fs_and cm (fun _ => none) pc e' z' a pos h]

/-- The whole prover on an AND proposition. -/
theorem generate_and (sb : SigmaBoolean G) (h : AndOnly sb) (hk : ∀ x ∈ leaves sb, KnownLeaf E x.1)
    (h5 : ∀ x ∈ leaves sb, step5 E x.1 none none false x.2 = .ok (some (f6 cm rr x.1 x.2))) (message bs : Bytes) (e : Challenge)
    (z : Position → ZMod q) (hbs : fsUnchecked E.curve.codec (UT (fun p pos => some (cm p pos)) e z sb cryptoTreePrefix) = .ok bs)
    (he : e = fsHash E.curve.hash (bs ++ message)) (h9 : ∀ x ∈ leaves sb, step9Response E x.1 (rr x.2) e x.2 = .ok (z x.2)) :
    generateProof E sb message = serializeSig (UT (fun _ _ => none) e z sb cryptoTreePrefix) := by
  have hp : proveToUnchecked E (sbDepth sb) (T0 sb cryptoTreePrefix) message = .ok (UT (fun _ _ => none) e z sb cryptoTreePrefix) := by
    unfold proveToUnchecked markReal polishSimulated simulateAndCommit proving
    have hu : ∀ (f : LeafProp G → Position → ProofTree G q), (∀ p pos, (f p pos).isUnproven = true) → ∀ ch,
        (AT f ch sb cryptoTreePrefix).isUnproven = true := by
      intro f hf ch
      cases sb <;> first | rfl | exact hf _ _
    simp only [T0_mark E sb cryptoTreePrefix cryptoTreePrefix h hk, Outcome.bind_ok, expectUnproven, T0_isUnproven, if_true,
      ProofTree.isReal, T0_simulated, Bool.not_false, Bool.not_true, Bool.false_eq_true, if_false,
      polish_and sb cryptoTreePrefix h _ (Nat.le_refl _), hu f3 (fun _ _ => rfl),
      commit_and E cm rr sb cryptoTreePrefix h h5 _ (Nat.le_refl _), hu (f6 cm rr) (fun _ _ => rfl),
      fs_and cm rr E.curve.codec e z sb cryptoTreePrefix h, hbs, ← he,
      proving_and E cm rr e z sb cryptoTreePrefix h h9 _ (Nat.le_refl _), uncheck_and e z sb cryptoTreePrefix h]
  cases sb with
  | trivial b => exact h.elim
  | dlog x =>
    show (do let tree ← convertToUnproven (.dlog x); let t ← proveToUnchecked E (sbDepth (.dlog x)) tree message; serializeSig t) = _
    rw [T0_convert _ h, Outcome.bind_ok, hp, Outcome.bind_ok]
  | dht a b c d =>
    show (do let tree ← convertToUnproven (.dht a b c d); let t ← proveToUnchecked E (sbDepth (.dht a b c d)) tree message; serializeSig t) = _
    rw [T0_convert _ h, Outcome.bind_ok, hp, Outcome.bind_ok]
  | cand l =>
    show (do let tree ← convertToUnproven (.cand l); let t ← proveToUnchecked E (sbDepth (.cand l)) tree message; serializeSig t) = _
    rw [T0_convert _ h, Outcome.bind_ok, hp, Outcome.bind_ok]
  | cor l => exact h.elim
  | cth k l => exact h.elim

end
end
end Verif.Sigma
