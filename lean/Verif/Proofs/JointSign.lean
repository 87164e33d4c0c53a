import Verif.Spec.JointSign
import Verif.Proofs.MultiSig

set_option linter.unusedSimpArgs false
set_option linter.unusedVariables false

/-! The prover with hints when just enough parties sign. -/

namespace Verif.Sigma
open Verif Verif.Spec

section
variable {G : Type} {q : Nat}

/-- What a function on leaves gives for a single statement. -/
def onLeaf {α : Type} (d : α) (f : LeafProp G → α) : SigmaBoolean G → α
  | .dlog h => f (.dlog h)
  | .dht g h u v => f (.dht g h u v)
  | _ => d

theorem onLeaf_toSB {α : Type} (d : α) (f : LeafProp G → α) (p : LeafProp G) : onLeaf d f p.toSB = f p := by cases p <;> rfl

theorem leavesAt_toSB (p : LeafProp G) (pos : Position) : leavesAt p.toSB pos = [(p, pos)] := by cases p <;> rfl

variable (σ : Assignment G)

/-- A list of children, made by `real` where the child holds and by `sim` where it is a single statement that does not. -/
def ML {α : Type} (d : α) (real : Nat → SigmaBoolean G → Position → α) (sim : LeafProp G → Position → α) :
    List (SigmaBoolean G) → Position → Nat → List α
  | [], _, _ => []
  | a :: l, pos, i => (if holds σ a then real i a (pos ++ [i]) else onLeaf d (fun p => sim p (pos ++ [i])) a) :: ML d real sim l pos (i + 1)

/-- Children that do not hold are single statements. -/
def SimLeaves (l : List (SigmaBoolean G)) : Prop := ∀ a ∈ l, holds σ a = false → ∃ p : LeafProp G, a = p.toSB

theorem justEnoughList_iff (l : List (SigmaBoolean G)) :
    JustEnoughList σ l ↔ SimLeaves σ l ∧ ∀ a ∈ l, holds σ a = true → JustEnough σ a := by
  induction l with
  | nil => simp [JustEnoughList, SimLeaves]
  | cons a l ih =>
    rw [JustEnoughList, ih]
    unfold SimLeaves
    simp only [List.forall_mem_cons]
    constructor
    · rintro ⟨⟨h1, h2⟩ | ⟨h1, h2⟩, h3, h4⟩
      · exact ⟨⟨fun h => by simp [h1] at h, h3⟩, fun _ => h2, h4⟩
      · exact ⟨⟨fun _ => h2, h3⟩, fun h => by simp [h1] at h, h4⟩
    · rintro ⟨⟨h1, h2⟩, h3, h4⟩
      refine ⟨?_, h2, h4⟩
      cases hh : holds σ a
      · exact .inr ⟨rfl, h1 hh⟩
      · exact .inl ⟨rfl, h3 hh⟩

theorem justEnough_holds (a : SigmaBoolean G) (h : JustEnough σ a) : holds σ a = true := by
  cases a with
  | trivial b => exact h.elim
  | dlog x => exact h
  | dht a b c d => exact h
  | cand l => rw [holds, h.1]; simp
  | cor l => rw [holds, h.1]; rfl
  | cth k l => rw [holds, h.1]; simp

/-- `a` is the child with number `j` in a list numbered from `i` on. -/
def Child (l : List (SigmaBoolean G)) (i j : Nat) (a : SigmaBoolean G) : Prop := ∃ n, j = i + n ∧ l[n]? = some a

theorem Child.mem {l : List (SigmaBoolean G)} {i j : Nat} {a : SigmaBoolean G} (h : Child l i j a) : a ∈ l := by
  obtain ⟨n, _, h⟩ := h
  exact List.mem_of_getElem? h

theorem Child.sub {l : List (SigmaBoolean G)} {i j : Nat} {a : SigmaBoolean G} (h : Child l i j a) (pos : Position) :
    ∀ x ∈ leavesAt a (pos ++ [j]), x ∈ leavesAtList l pos i := by
  obtain ⟨n, rfl, h⟩ := h
  intro x hx
  induction l generalizing i n with
  | nil => simp at h
  | cons b l ih =>
    rw [leavesAtList]
    cases n with
    | zero =>
      simp only [List.getElem?_cons_zero, Option.some.injEq] at h
      subst h
      exact List.mem_append_left _ hx
    | succ n =>
      rw [List.getElem?_cons_succ] at h
      rw [show i + (n + 1) = i + 1 + n by omega] at hx
      exact List.mem_append_right _ (ih n h hx)

theorem Child.tail {a b : SigmaBoolean G} {l : List (SigmaBoolean G)} {i j : Nat} (h : Child l (i + 1) j b) : Child (a :: l) i j b := by
  obtain ⟨n, rfl, h⟩ := h
  exact ⟨n + 1, by omega, by rw [List.getElem?_cons_succ]; exact h⟩

theorem Child.head {a : SigmaBoolean G} {l : List (SigmaBoolean G)} {i : Nat} : Child (a :: l) i i a := ⟨0, rfl, rfl⟩

theorem SimLeaves.tail {a : SigmaBoolean G} {l : List (SigmaBoolean G)} (h : SimLeaves σ (a :: l)) : SimLeaves σ l :=
  fun b hb => h b (List.mem_cons_of_mem _ hb)

section
variable {α β : Type} {d : α} {d' : β} {real : Nat → SigmaBoolean G → Position → α} {sim : LeafProp G → Position → α}
  {real' : Nat → SigmaBoolean G → Position → β} {sim' : LeafProp G → Position → β}

/-- An induction principle: what holds of pairs of corresponding children. -/
theorem ML_forall₂ (R : α → β → Prop) : ∀ (l : List (SigmaBoolean G)) (pos : Position) (i : Nat), SimLeaves σ l →
    (∀ j a, Child l i j a → holds σ a = true → R (real j a (pos ++ [j])) (real' j a (pos ++ [j]))) →
    (∀ j p, Child l i j p.toSB → holds σ p.toSB = false → R (sim p (pos ++ [j])) (sim' p (pos ++ [j]))) →
    List.Forall₂ R (ML σ d real sim l pos i) (ML σ d' real' sim' l pos i)
  | [], _, _, _, _, _ => .nil
  | a :: l, pos, i, hs, h1, h2 => by
    rw [ML, ML]
    refine .cons ?_ (ML_forall₂ R l pos (i + 1) hs.tail (fun j b hb => h1 j b hb.tail) (fun j p hb => h2 j p hb.tail))
    cases hh : holds σ a with
    | true =>
      simp only [if_true]
      exact h1 i a .head hh
    | false =>
      simp only [Bool.false_eq_true, if_false]
      obtain ⟨p, rfl⟩ := hs a List.mem_cons_self hh
      rw [onLeaf_toSB, onLeaf_toSB]
      exact h2 i p .head hh

theorem ML_length : ∀ (l : List (SigmaBoolean G)) (pos : Position) (i : Nat), (ML σ d real sim l pos i).length = l.length
  | [], _, _ => rfl
  | a :: l, pos, i => by rw [ML, List.length_cons, ML_length l, List.length_cons]

theorem ML_all (P : α → Prop) (l : List (SigmaBoolean G)) (pos : Position) (i : Nat) (hs : SimLeaves σ l)
    (h1 : ∀ j a, Child l i j a → holds σ a = true → P (real j a (pos ++ [j])))
    (h2 : ∀ j p, Child l i j p.toSB → holds σ p.toSB = false → P (sim p (pos ++ [j]))) :
    ∀ x ∈ ML σ d real sim l pos i, P x := by
  have := ML_forall₂ (d := d) (d' := d) (real := real) (real' := real) (sim := sim) (sim' := sim) σ (fun x _ => P x) l pos i hs h1 h2
  intro x hx
  obtain ⟨n, hn, rfl⟩ := List.getElem_of_mem hx
  exact (List.forall₂_iff_get.1 this).2 n hn hn

theorem forall₂_tryMap (F : α → Outcome β) {as : List α} {bs : List β} (h : List.Forall₂ (fun a b => F a = .ok b) as bs) :
    tryMap F as = .ok bs := by
  induction h with
  | nil => rfl
  | cons h _ ih => rw [tryMap, h, Outcome.bind_ok, ih]; rfl

theorem forall₂_map (F : α → β) {as : List α} {bs : List β} (h : List.Forall₂ (fun a b => F a = b) as bs) : as.map F = bs := by
  induction h with
  | nil => rfl
  | cons h _ ih => rw [List.map_cons, h, ih]

theorem ML_tryMap (F : α → Outcome β) (l : List (SigmaBoolean G)) (pos : Position) (i : Nat) (hs : SimLeaves σ l)
    (h1 : ∀ j a, Child l i j a → holds σ a = true → F (real j a (pos ++ [j])) = .ok (real' j a (pos ++ [j])))
    (h2 : ∀ j p, Child l i j p.toSB → holds σ p.toSB = false → F (sim p (pos ++ [j])) = .ok (sim' p (pos ++ [j]))) :
    tryMap F (ML σ d real sim l pos i) = .ok (ML σ d' real' sim' l pos i) :=
  forall₂_tryMap F (ML_forall₂ σ _ l pos i hs h1 h2)

theorem ML_map (F : α → β) (l : List (SigmaBoolean G)) (pos : Position) (i : Nat) (hs : SimLeaves σ l)
    (h1 : ∀ j a, Child l i j a → holds σ a = true → F (real j a (pos ++ [j])) = real' j a (pos ++ [j]))
    (h2 : ∀ j p, Child l i j p.toSB → holds σ p.toSB = false → F (sim p (pos ++ [j])) = sim' p (pos ++ [j])) :
    (ML σ d real sim l pos i).map F = ML σ d' real' sim' l pos i :=
  forall₂_map F (ML_forall₂ σ _ l pos i hs h1 h2)

end

/-! ### The trees -/

/-- A tree that never occurs. -/
def noTree : ProofTree G q := .conj .and [] none true [] []

mutual
/-- The tree before challenges are given out: real leaves made by `fr`, simulated ones by `fs`. -/
def GT (fr fs : LeafProp G → Position → ProofTree G q) : SigmaBoolean G → Position → ProofTree G q
  | .trivial _, _ => noTree
  | .dlog h, pos => fr (.dlog h) pos
  | .dht g h u v, pos => fr (.dht g h u v) pos
  | .cand l, pos => .conj .and l none false pos (GTL fr fs l pos 0)
  | .cor l, pos => .conj .or l none false pos (GTL fr fs l pos 0)
  | .cth k l, pos => .conj (.thr k none) l none false pos (GTL fr fs l pos 0)
/-- Children from number `i` on. -/
def GTL (fr fs : LeafProp G → Position → ProofTree G q) : List (SigmaBoolean G) → Position → Nat → List (ProofTree G q)
  | [], _, _ => []
  | a :: l, pos, i =>
    (if holds σ a then GT fr fs a (pos ++ [i]) else onLeaf noTree (fun p => fs p (pos ++ [i])) a) :: GTL fr fs l pos (i + 1)
end

theorem GTL_eq (fr fs : LeafProp G → Position → ProofTree G q) : ∀ (l : List (SigmaBoolean G)) (pos : Position) (i : Nat),
    GTL σ fr fs l pos i = ML σ noTree (fun _ => GT σ fr fs) fs l pos i
  | [], _, _ => rfl
  | a :: l, pos, i => by rw [GTL, ML, GTL_eq fr fs l]

variable (simE : Position → Challenge)

/-- The challenges of the children that are simulated. -/
def simChs : List (SigmaBoolean G) → Position → Nat → List (Option Challenge) :=
  ML σ none (fun _ _ _ => none) (fun _ pos => some (simE pos))

/-- The challenge of the real child of an OR. -/
def orCh (e : Challenge) (l : List (SigmaBoolean G)) (pos : Position) : Challenge :=
  e.xor (xorAll ((simChs σ simE l pos 0).filterMap id))

/-- The polynomial of a threshold. -/
def thrPoly (e : Challenge) (l : List (SigmaBoolean G)) (pos : Position) : Gf.Poly :=
  match Gf.interpolate (pv 0 (simChs σ simE l pos 0)).1 (pv 0 (simChs σ simE l pos 0)).2 e.toGf with
  | .ok p => p
  | _ => ⟨[], 0⟩

/-- The challenges of the real children of a threshold. -/
def thrCh (e : Challenge) (l : List (SigmaBoolean G)) (pos : Position) (i : Nat) : Challenge :=
  .ofGf (gfEval (thrPoly σ simE e l pos).coefficients (gfByte (BitVec.ofNat 8 (i + 1))))

mutual
/-- The tree with all challenges given out. -/
def PT9 (g : LeafProp G → Position → Challenge → Unchecked G q) : Challenge → SigmaBoolean G → Position → ProofTree G q
  | _, .trivial _, _ => noTree
  | e, .dlog h, pos => .unchecked (g (.dlog h) pos e)
  | e, .dht a b c d, pos => .unchecked (g (.dht a b c d) pos e)
  | e, .cand l, pos => .conj .and l (some e) false pos (PT9L g (fun _ => e) l pos 0)
  | e, .cor l, pos => .conj .or l (some e) false pos (PT9L g (fun _ => orCh σ simE e l pos) l pos 0)
  | e, .cth k l, pos =>
    .conj (.thr k (some (thrPoly σ simE e l pos))) l (some e) false pos (PT9L g (thrCh σ simE e l pos) l pos 0)
/-- Children; `ec` gives the challenges of the real ones. -/
def PT9L (g : LeafProp G → Position → Challenge → Unchecked G q) : (Nat → Challenge) → List (SigmaBoolean G) → Position → Nat →
    List (ProofTree G q)
  | _, [], _, _ => []
  | ec, a :: l, pos, i => (if holds σ a then PT9 g (ec i) a (pos ++ [i])
      else onLeaf noTree (fun p => .unchecked (g p (pos ++ [i]) (simE (pos ++ [i])))) a) :: PT9L g ec l pos (i + 1)
end

theorem PT9L_eq (g : LeafProp G → Position → Challenge → Unchecked G q) : ∀ (ec : Nat → Challenge) (l : List (SigmaBoolean G)) (pos : Position)
    (i : Nat), PT9L σ simE g ec l pos i =
      ML σ noTree (fun j => PT9 σ simE g (ec j)) (fun p pos => .unchecked (g p pos (simE pos))) l pos i
  | _, [], _, _ => rfl
  | ec, a :: l, pos, i => by rw [PT9L, ML, PT9L_eq g ec l]

/-- A finished tree that never occurs. -/
def noProof : Unchecked G q := .conj .and zeroChallenge []

mutual
/-- The finished tree. -/
def UJ (g : LeafProp G → Position → Challenge → Unchecked G q) : Challenge → SigmaBoolean G → Position → Unchecked G q
  | _, .trivial _, _ => noProof
  | e, .dlog h, pos => g (.dlog h) pos e
  | e, .dht a b c d, pos => g (.dht a b c d) pos e
  | e, .cand l, pos => .conj .and e (UJL g (fun _ => e) l pos 0)
  | e, .cor l, pos => .conj .or e (UJL g (fun _ => orCh σ simE e l pos) l pos 0)
  | e, .cth k l, pos => .conj (.thr k (thrPoly σ simE e l pos)) e (UJL g (thrCh σ simE e l pos) l pos 0)
/-- Children; `ec` gives the challenges of the real ones. -/
def UJL (g : LeafProp G → Position → Challenge → Unchecked G q) : (Nat → Challenge) → List (SigmaBoolean G) → Position → Nat →
    List (Unchecked G q)
  | _, [], _, _ => []
  | ec, a :: l, pos, i => (if holds σ a then UJ g (ec i) a (pos ++ [i])
      else onLeaf noProof (fun p => g p (pos ++ [i]) (simE (pos ++ [i]))) a) :: UJL g ec l pos (i + 1)
end

theorem UJL_eq (g : LeafProp G → Position → Challenge → Unchecked G q) : ∀ (ec : Nat → Challenge) (l : List (SigmaBoolean G)) (pos : Position)
    (i : Nat), UJL σ simE g ec l pos i = ML σ noProof (fun j => UJ σ simE g (ec j)) (fun p pos => g p pos (simE pos)) l pos i
  | _, [], _, _ => rfl
  | ec, a :: l, pos, i => by rw [UJL, ML, UJL_eq g ec l]

mutual
/-- The leaves with their challenges. -/
def LJ : Challenge → SigmaBoolean G → Position → List (LeafProp G × Position × Challenge)
  | _, .trivial _, _ => []
  | e, .dlog h, pos => [(.dlog h, pos, e)]
  | e, .dht a b c d, pos => [(.dht a b c d, pos, e)]
  | e, .cand l, pos => LJL (fun _ => e) l pos 0
  | e, .cor l, pos => LJL (fun _ => orCh σ simE e l pos) l pos 0
  | e, .cth _ l, pos => LJL (thrCh σ simE e l pos) l pos 0
/-- Children; `ec` gives the challenges of the real ones. -/
def LJL : (Nat → Challenge) → List (SigmaBoolean G) → Position → Nat → List (LeafProp G × Position × Challenge)
  | _, [], _, _ => []
  | ec, a :: l, pos, i => (if holds σ a then LJ (ec i) a (pos ++ [i])
      else onLeaf [] (fun p => [(p, pos ++ [i], simE (pos ++ [i]))]) a) ++ LJL ec l pos (i + 1)
end

theorem LJL_eq : ∀ (ec : Nat → Challenge) (l : List (SigmaBoolean G)) (pos : Position) (i : Nat), LJL σ simE ec l pos i =
    (ML σ [] (fun j => LJ σ simE (ec j)) (fun p pos => [(p, pos, simE pos)]) l pos i).flatten
  | _, [], _, _ => rfl
  | ec, a :: l, pos, i => by rw [LJL, ML, LJL_eq ec l, List.flatten_cons]

theorem Child.subc {l : List (SigmaBoolean G)} {i j : Nat} {a : SigmaBoolean G} (h : Child l i j a) (hh : holds σ a = true) (ec : Nat → Challenge)
    (pos : Position) : ∀ x ∈ LJ σ simE (ec j) a (pos ++ [j]), x ∈ LJL σ simE ec l pos i := by
  obtain ⟨n, rfl, h⟩ := h
  intro x hx
  induction l generalizing i n with
  | nil => simp at h
  | cons b l ih =>
    rw [LJL]
    cases n with
    | zero =>
      simp only [List.getElem?_cons_zero, Option.some.injEq] at h
      subst h
      rw [if_pos hh]
      exact List.mem_append_left _ hx
    | succ n =>
      rw [List.getElem?_cons_succ] at h
      rw [show i + (n + 1) = i + 1 + n by omega] at hx
      exact List.mem_append_right _ (ih n h hx)

mutual
/-- The leaves are those of the proposition. -/
theorem LJ_leaves : ∀ (e : Challenge) (a : SigmaBoolean G) (pos : Position), JustEnough σ a →
    (LJ σ simE e a pos).map (fun x => (x.1, x.2.1)) = leavesAt a pos
  | _, .trivial _, _, h => h.elim
  | _, .dlog _, _, _ => rfl
  | _, .dht _ _ _ _, _, _ => rfl
  | e, .cand l, pos, h => LJL_leaves _ l pos 0 h.2
  | e, .cor l, pos, h => LJL_leaves _ l pos 0 h.2
  | e, .cth _ l, pos, h => LJL_leaves _ l pos 0 h.2
theorem LJL_leaves : ∀ (ec : Nat → Challenge) (l : List (SigmaBoolean G)) (pos : Position) (i : Nat), JustEnoughList σ l →
    (LJL σ simE ec l pos i).map (fun x => (x.1, x.2.1)) = leavesAtList l pos i
  | _, [], _, _, _ => rfl
  | ec, a :: l, pos, i, h => by
    rw [LJL, leavesAtList, List.map_append, LJL_leaves ec l pos (i + 1) h.2]
    congr 1
    rcases h.1 with ⟨h1, h2⟩ | ⟨h1, p, rfl⟩
    · rw [if_pos h1]; exact LJ_leaves _ a _ h2
    · rw [if_neg (by simp [h1]), onLeaf_toSB, leavesAt_toSB]; rfl
end

mutual
/-- Simulated leaves have their own challenges. -/
theorem LJ_sim : ∀ (e : Challenge) (a : SigmaBoolean G) (pos : Position), JustEnough σ a →
    ∀ x ∈ LJ σ simE e a pos, holds σ x.1.toSB = false → x.2.2 = simE x.2.1
  | _, .trivial _, _, h => h.elim
  | _, .dlog _, _, h => fun x hx hf => by
    rw [LJ, List.mem_singleton] at hx; subst hx
    exact absurd (show holds σ _ = true from h) (by simp only [LeafProp.toSB] at hf; simp [hf])
  | _, .dht _ _ _ _, _, h => fun x hx hf => by
    rw [LJ, List.mem_singleton] at hx; subst hx
    exact absurd (show holds σ _ = true from h) (by simp only [LeafProp.toSB] at hf; simp [hf])
  | e, .cand l, pos, h => LJL_sim _ l pos 0 h.2
  | e, .cor l, pos, h => LJL_sim _ l pos 0 h.2
  | e, .cth _ l, pos, h => LJL_sim _ l pos 0 h.2
theorem LJL_sim : ∀ (ec : Nat → Challenge) (l : List (SigmaBoolean G)) (pos : Position) (i : Nat), JustEnoughList σ l →
    ∀ x ∈ LJL σ simE ec l pos i, holds σ x.1.toSB = false → x.2.2 = simE x.2.1
  | _, [], _, _, _ => fun x hx => by cases hx
  | ec, a :: l, pos, i, h => fun x hx hf => by
    rw [LJL] at hx
    rcases List.mem_append.1 hx with hx | hx
    · rcases h.1 with ⟨h1, h2⟩ | ⟨h1, p, rfl⟩
      · rw [if_pos h1] at hx; exact LJ_sim _ a _ h2 x hx hf
      · rw [if_neg (by simp [h1]), onLeaf_toSB, List.mem_singleton] at hx
        rw [hx]
    · exact LJL_sim ec l pos (i + 1) h.2 x hx hf
end

/-! ### Challenges are distributed as the verifier wants -/

theorem simChs_count : ∀ (l : List (SigmaBoolean G)) (pos : Position) (i : Nat), SimLeaves σ l →
    (simChs σ simE l pos i).count none = holdsCount σ l
  | [], _, _, _ => rfl
  | a :: l, pos, i, hs => by
    unfold simChs
    rw [ML, holdsCount, List.count_cons]
    have := simChs_count l pos (i + 1) hs.tail
    unfold simChs at this
    rw [this]
    cases hh : holds σ a with
    | true => simp; omega
    | false =>
      obtain ⟨p, rfl⟩ := hs a List.mem_cons_self hh
      rw [onLeaf_toSB]
      simp

theorem simChs_length (l : List (SigmaBoolean G)) (pos : Position) (i : Nat) : (simChs σ simE l pos i).length = l.length := ML_length σ l pos i

/-- What `thrPoly` gives. -/
theorem thrPoly_ok (e : Challenge) (l : List (SigmaBoolean G)) (pos : Position) (k : Byte) (hn : l.length ≤ 255) (hs : SimLeaves σ l)
    (hc : holdsCount σ l = k.toNat) :
    Gf.interpolate (pv 0 (simChs σ simE l pos 0)).1 (pv 0 (simChs σ simE l pos 0)).2 e.toGf = .ok (thrPoly σ simE e l pos) ∧
    Gf.PolyOk (thrPoly σ simE e l pos) ∧ (thrPoly σ simE e l pos).degree = l.length - k.toNat ∧
    (thrPoly σ simE e l pos).coefficients.length = l.length - k.toNat + 1 ∧
    (thrPoly σ simE e l pos).coefficients[0]? = some e.toGf ∧
    ∀ j c, (simChs σ simE l pos 0)[j]? = some (some c) →
      c.toGf = gfEval (thrPoly σ simE e l pos).coefficients (gfByte (BitVec.ofNat 8 (j + 1))) := by
  obtain ⟨poly, h1, h2⟩ := interpolate_fits (simChs σ simE l pos 0) k.toNat e (by rw [simChs_length]; exact hn)
    ((simChs_count σ simE l pos 0 hs).trans hc)
  have : thrPoly σ simE e l pos = poly := by unfold thrPoly; rw [h1]
  rw [this]
  rw [simChs_length] at h2
  exact ⟨h1, h2⟩

variable (g : LeafProp G → Position → Challenge → Unchecked G q)

theorem UJ_challenge (hg : ∀ p pos e, (g p pos e).challenge = e) (e : Challenge) (a : SigmaBoolean G) (pos : Position) (h : JustEnough σ a) :
    (UJ σ simE g e a pos).challenge = e := by
  cases a with
  | trivial b => exact h.elim
  | dlog x => exact hg _ _ _
  | dht a b c d => exact hg _ _ _
  | cand l => rfl
  | cor l => rfl
  | cth k l => rfl

/-- The challenges of all the children. -/
theorem UJL_challenges (hg : ∀ p pos e, (g p pos e).challenge = e) : ∀ (ec : Nat → Challenge) (l : List (SigmaBoolean G)) (pos : Position)
    (i : Nat), JustEnoughList σ l → ∀ j, ((UJL σ simE g ec l pos i).map Unchecked.challenge)[j]? =
      ((simChs σ simE l pos i)[j]?).map fun (o : Option Challenge) => o.getD (ec (i + j))
  | _, [], _, _, _, _ => rfl
  | ec, a :: l, pos, i, h, j => by
    unfold simChs
    rw [UJL, ML, List.map_cons]
    cases j with
    | zero =>
      simp only [List.getElem?_cons_zero, Option.map_some, Option.some.injEq, Nat.add_zero]
      rcases h.1 with ⟨h1, h2⟩ | ⟨h1, p, rfl⟩
      · rw [if_pos h1, if_pos h1, UJ_challenge σ simE g hg _ a _ h2]; rfl
      · rw [if_neg (by simp [h1]), if_neg (by simp [h1]), onLeaf_toSB, onLeaf_toSB, hg]; rfl
    | succ j =>
      rw [List.getElem?_cons_succ, List.getElem?_cons_succ, UJL_challenges hg ec l pos (i + 1) h.2 j]
      unfold simChs
      rw [show i + 1 + j = i + (j + 1) by omega]

theorem UJL_consistent (ec : Nat → Challenge) (l : List (SigmaBoolean G)) (pos : Position) (hc : ∀ p pos e, Consistent p.toSB (g p pos e)) : ∀ (i : Nat), JustEnoughList σ l →
    (∀ a ∈ l, JustEnough σ a → ∀ e pos, Consistent a (UJ σ simE g e a pos)) → ConsistentList l (UJL σ simE g ec l pos i) := by
  induction l with
  | nil => intros; trivial
  | cons a l ih =>
    intro i h hr
    rw [UJL]
    refine ⟨?_, ih (i + 1) h.2 (fun b hb => hr b (List.mem_cons_of_mem _ hb))⟩
    rcases h.1 with ⟨h1, h2⟩ | ⟨h1, p, rfl⟩
    · rw [if_pos h1]; exact hr a List.mem_cons_self h2 _ _
    · rw [if_neg (by simp [h1]), onLeaf_toSB]; exact hc _ _ _

theorem boundedList_iff (l : List (SigmaBoolean G)) : SigmaBoolean.BoundedList l ↔ ∀ a ∈ l, a.Bounded := by
  induction l with
  | nil => simp [SigmaBoolean.BoundedList]
  | cons a l ih => simp [SigmaBoolean.BoundedList, ih]

theorem getD_map_xor (es : List (Option Challenge)) (cs : List Challenge) (x : Challenge)
    (h : ∀ j : Nat, cs[j]? = (es[j]?).map fun (o : Option Challenge) => o.getD x) : cs = es.map fun o => o.getD x := by
  apply List.ext_getElem?
  intro j
  rw [h j, List.getElem?_map]

theorem UJ_consistent (hg : ∀ p pos e, (g p pos e).challenge = e) (hc : ∀ p pos e, Consistent p.toSB (g p pos e)) (a : SigmaBoolean G) :
    a.Bounded → JustEnough σ a → ∀ e pos, Consistent a (UJ σ simE g e a pos) := by
  induction a using SigmaBoolean.induct with
  | htriv b => intro _ h; exact h.elim
  | hdlog x => intro _ _ e pos; exact hc (.dlog x) pos e
  | hdht a b c d => intro _ _ e pos; exact hc (.dht a b c d) pos e
  | hcand l ih =>
    intro hb h e pos
    rw [UJ]
    refine ⟨?_, UJL_consistent σ simE g _ l pos hc 0 h.2 fun a ha hj e pos => ih a ha ((boundedList_iff l).1 hb.2.2 a ha) hj e pos⟩
    intro c hcm
    have hall := (SigmaBoolean.holdsCount_all σ l).1 (by rw [h.1]; simp)
    obtain ⟨hs, hr⟩ := (justEnoughList_iff σ l).1 h.2
    rw [UJL_eq] at hcm
    refine ML_all σ (fun c => c.challenge = e) l pos 0 hs (fun j a hch hh => ?_) (fun j p hch hh => ?_) c hcm
    · exact UJ_challenge σ simE g hg e a _ (hr a hch.mem hh)
    · rw [hall _ hch.mem] at hh; cases hh
  | hcor l ih =>
    intro hb h e pos
    rw [UJ]
    refine ⟨?_, UJL_consistent σ simE g _ l pos hc 0 h.2 fun a ha hj e pos => ih a ha ((boundedList_iff l).1 hb.2.2 a ha) hj e pos⟩
    obtain ⟨hs, hr⟩ := (justEnoughList_iff σ l).1 h.2
    rw [getD_map_xor (simChs σ simE l pos 0) _ (orCh σ simE e l pos)
      (fun j => UJL_challenges σ simE g hg (fun _ => orCh σ simE e l pos) l pos 0 h.2 j),
      xorAll_fill _ _ ((simChs_count σ simE l pos 0 hs).trans h.1)]
    unfold orCh
    rw [xor_xor_cancel]
  | hcth k l ih =>
    intro hb h e pos
    rw [UJ]
    obtain ⟨hs, hr⟩ := (justEnoughList_iff σ l).1 h.2
    obtain ⟨h1, h2, h3, h4, h5, h6⟩ := thrPoly_ok σ simE e l pos k hb.2.1 hs h.1
    have hle := SigmaBoolean.holdsCount_le σ l
    refine ⟨rfl, by rw [← h.1]; exact hle, h3, h4, h5, ?_,
      UJL_consistent σ simE g _ l pos hc 0 h.2 fun a ha hj e pos => ih a ha ((boundedList_iff l).1 hb.2.2 a ha) hj e pos⟩
    intro i c hci
    have hch := UJL_challenges σ simE g hg (thrCh σ simE e l pos) l pos 0 h.2 i
    rw [List.getElem?_map, hci, Option.map_some, Nat.zero_add] at hch
    cases ho : (simChs σ simE l pos 0)[i]? with
    | none => rw [ho] at hch; cases hch
    | some o =>
      rw [ho, Option.map_some, Option.some.injEq] at hch
      rw [hch]
      cases o with
      | none => rw [Option.getD_none]; unfold thrCh; rw [toGf_ofGf]
      | some c' => rw [Option.getD_some]; exact h6 i c' ho

/-! ### The passes of the prover -/

section
variable [DecidableEq G] [AddCommGroup G] [Module (ZMod q) G] (E : ProverEnv G q)

/-- The test for a leaf in `mark_real`. -/
def knownLeaf (p : LeafProp G) : Bool :=
  (hintRealImages E.hints).any (fun i => i.beq p.toSB) || E.secrets.any (fun s => decide (s.image E.curve = p))

mutual
theorem mark_je : ∀ (sb : SigmaBoolean G) (pos : Position), NoTrivial sb → (∀ x ∈ leavesAt sb pos, knownLeaf E x.1 = holds σ x.1.toSB) →
    ∃ t0 : ProofTree G q, convertToUnproven sb = .ok t0 ∧ rewriteBu (markStep E) t0 = .ok (MT σ sb (!holds σ sb) cryptoTreePrefix)
  | .trivial _, _, h, _ => h.elim
  | .dlog h, pos, _, hk => by
    have := hk (.dlog h, pos) (by simp [leavesAt])
    unfold knownLeaf at this
    refine ⟨_, rfl, ?_⟩
    rw [rewriteBu, markStep]
    simp only at this ⊢
    rw [this]; rfl
  | .dht g h u v, pos, _, hk => by
    have := hk (.dht g h u v, pos) (by simp [leavesAt])
    unfold knownLeaf at this
    refine ⟨_, rfl, ?_⟩
    rw [rewriteBu, markStep]
    simp only at this ⊢
    rw [this]; rfl
  | .cand items, pos, h, hk => by
    obtain ⟨ts, h1, h2⟩ := mark_jeList items pos 0 h hk
    refine ⟨_, by rw [convertToUnproven, h1]; rfl, ?_⟩
    rw [rewriteBu, h2, Outcome.bind_ok, markStep, castToUnp_ok (MTList_unproven _ _)]
    simp only [Outcome.bind_ok, Outcome.pure_eq, MTList_any]; rfl
  | .cor items, pos, h, hk => by
    obtain ⟨ts, h1, h2⟩ := mark_jeList items pos 0 h hk
    refine ⟨_, by rw [convertToUnproven, h1]; rfl, ?_⟩
    rw [rewriteBu, h2, Outcome.bind_ok, markStep, castToUnp_ok (MTList_unproven _ _)]
    simp only [Outcome.bind_ok, Outcome.pure_eq, MTList_all]; rfl
  | .cth k items, pos, h, hk => by
    obtain ⟨ts, h1, h2⟩ := mark_jeList items pos 0 h hk
    refine ⟨_, by rw [convertToUnproven, h1]; rfl, ?_⟩
    rw [rewriteBu, h2, Outcome.bind_ok, markStep, castToUnp_ok (MTList_unproven _ _)]
    simp only [Outcome.bind_ok, Outcome.pure_eq, MTList_countP, Option.getD_some, MT, holds, Outcome.ok.injEq, ProofTree.conj.injEq,
      and_true, true_and]
    rw [Bool.eq_iff_iff]; simp
theorem mark_jeList : ∀ (l : List (SigmaBoolean G)) (pos : Position) (i : Nat), NoTrivialList l →
    (∀ x ∈ leavesAtList l pos i, knownLeaf E x.1 = holds σ x.1.toSB) → ∃ ts : List (ProofTree G q), convertToUnprovenList l = .ok ts ∧
    rewriteBuList (markStep E) ts = .ok (MTList σ l)
  | [], _, _, _, _ => ⟨[], rfl, rfl⟩
  | a :: l, pos, i, h, hk => by
    rw [leavesAtList] at hk
    obtain ⟨t, h1, h2⟩ := mark_je a (pos ++ [i]) h.1 (fun x hx => hk x (List.mem_append_left _ hx))
    obtain ⟨ts, h3, h4⟩ := mark_jeList l pos (i + 1) h.2 (fun x hx => hk x (List.mem_append_right _ hx))
    refine ⟨t :: ts, by rw [convertToUnprovenList, h1, Outcome.bind_ok, h3]; rfl, ?_⟩
    rw [rewriteBuList, h2, Outcome.bind_ok, h4]; rfl
end

theorem justEnough_noTrivial (a : SigmaBoolean G) : JustEnough σ a → NoTrivial a := by
  have hleaf : ∀ p : LeafProp G, NoTrivial p.toSB := fun p => by cases p <;> trivial
  have hl : ∀ l : List (SigmaBoolean G), (∀ a ∈ l, JustEnough σ a → NoTrivial a) → JustEnoughList σ l → NoTrivialList l := by
    intro l ih h
    rw [noTrivialList_iff]
    intro a ha
    obtain ⟨h1, h2⟩ := (justEnoughList_iff σ l).1 h
    cases hh : holds σ a
    · obtain ⟨p, rfl⟩ := h1 a ha hh; exact hleaf p
    · exact ih a ha (h2 a ha hh)
  induction a using SigmaBoolean.induct with
  | htriv b => exact False.elim
  | hdlog _ => intro _; trivial
  | hdht _ _ _ _ => intro _; trivial
  | hcand l ih => exact fun h => hl l ih h.2
  | hcor l ih => exact fun h => hl l ih h.2
  | hcth k l ih => exact fun h => hl l ih h.2

/-- A leaf before commitments. -/
def lf3 (s : Bool) (p : LeafProp G) (pos : Position) : ProofTree G q := .leaf p none none none s pos

theorem MT_toSB (p : LeafProp G) (s : Bool) (pos : Position) : MT (q := q) σ p.toSB s pos = lf3 s p pos := by cases p <;> rfl

theorem mapIdx_je : ∀ (l : List (SigmaBoolean G)) (pos : Position) (n : Nat), SimLeaves σ l →
    (MTList (q := q) σ l).mapIdx (fun i c => c.withPosition (pos ++ [i + n])) = ML σ noTree (fun _ a p => MT σ a false p) (lf3 true) l pos n
  | [], _, _, _ => rfl
  | a :: l, pos, n, hs => by
    rw [MTList, List.mapIdx_cons, ML, MT_withPosition]
    congr 1
    · rw [Nat.zero_add]
      cases hh : holds σ a with
      | true => rfl
      | false =>
        obtain ⟨p, rfl⟩ := hs a List.mem_cons_self hh
        rw [if_neg (by simp), onLeaf_toSB, MT_toSB]; rfl
    · rw [← mapIdx_je l pos (n + 1) hs.tail]
      apply List.ext_getElem
      · simp
      · intro i h1 h2
        simp only [List.getElem_mapIdx]
        rw [show i + 1 + n = i + (n + 1) by omega]

theorem keep_je (k : Nat) : ∀ (l : List (SigmaBoolean G)) (c : Nat), c + holdsCount σ l ≤ k → keepReal k c (MTList (q := q) σ l) = MTList σ l
  | [], _, _ => rfl
  | a :: l, c, h => by
    rw [holdsCount] at h
    rw [MTList, keepReal, MT_isReal]
    cases hh : holds σ a with
    | true =>
      rw [hh] at h
      simp only [if_true] at h
      simp only [Bool.not_true, Bool.not_false, if_true]
      rw [if_neg (by omega), keep_je k l (c + 1) (by omega)]
    | false =>
      rw [hh] at h
      simp only [Bool.false_eq_true, if_false] at h
      simp only [Bool.not_false, Bool.not_true, Bool.false_eq_true, if_false]
      rw [keep_je k l c (by omega)]

theorem or_je : ∀ (l : List (SigmaBoolean G)) (f : ProofTree G q), holdsCount σ l ≤ 1 → (MTList (q := q) σ l).find? ProofTree.isReal = some f →
    (MTList (q := q) σ l).map (fun c => if c.beq f || c.simulated then c else c.withSimulated true) = MTList σ l
  | [], _, _, h => by cases h
  | a :: l, f, hc, h => by
    rw [MTList] at h ⊢
    rw [holdsCount] at hc
    cases hh : holds σ a with
    | true =>
      rw [hh] at h hc
      rw [List.find?_cons] at h
      simp only [MT_isReal, Bool.not_true, Bool.not_false, Option.some.injEq] at h
      subst h
      have hz : ∀ b ∈ l, holds σ b = false := by
        simp only [if_true] at hc
        have h0 : holdsCount σ l = 0 := by omega
        intro b hb
        cases hb' : holds σ b with
        | false => rfl
        | true =>
          have := (SigmaBoolean.holdsCount_any σ l).2 ⟨b, hb, hb'⟩
          rw [h0] at this; cases this
      have hs : ∀ (l : List (SigmaBoolean G)), (∀ b ∈ l, holds σ b = false) → ∀ c ∈ MTList (q := q) σ l, c.simulated = true := by
        intro l
        induction l with
        | nil => intro _ c hc; cases hc
        | cons b l ih =>
          intro hz c hc
          rw [MTList] at hc
          rcases List.mem_cons.1 hc with rfl | hc
          · rw [MT_simulated, hz b List.mem_cons_self]; rfl
          · exact ih (fun x hx => hz x (List.mem_cons_of_mem _ hx)) c hc
      have hb : (MT (q := q) σ a (!true) cryptoTreePrefix).beq (MT σ a false cryptoTreePrefix) = true := (pbeq_iff _ _).2 rfl
      rw [List.map_cons, hb]
      simp only [Bool.true_or, if_true]
      congr 1
      conv_rhs => rw [← List.map_id (MTList σ l)]
      apply List.map_congr_left
      intro c hcm
      rw [hs l hz c hcm]; simp
    | false =>
      rw [hh] at h hc
      rw [List.find?_cons] at h
      simp only [MT_isReal, Bool.not_false, Bool.not_true] at h
      rw [List.map_cons, or_je l f (by simpa using hc) h]
      simp

/-- The common part of the three connectives. -/
theorem polish_je_conj (l : List (SigmaBoolean G)) (kind : PKind) (pos : Position) (hj : JustEnoughList σ l)
    (hm : polishChildren kind false (MTList (q := q) σ l) = .ok (MTList σ l)) (fuel : Nat)
    (ih : ∀ a ∈ l, JustEnough σ a → ∀ pos, ∀ fuel, sbDepth a ≤ fuel →
      rewriteTd polishStep fuel (MT σ a false pos) = .ok (GT (q := q) σ (lf3 false) (lf3 true) a pos)) (hf : sbDepthList l ≤ fuel) (hf1 : 0 < fuel) :
    rewriteTd polishStep (fuel + 1) (.conj kind l none false pos (MTList σ l)) =
      .ok (.conj kind l none false pos (GTL (q := q) σ (lf3 false) (lf3 true) l pos 0)) := by
  obtain ⟨hs, hr⟩ := (justEnoughList_iff σ l).1 hj
  have hcast := castToUnp_ok (MTList_unproven (q := q) σ l)
  have hstep : polishStep (.conj kind l none false pos (MTList (q := q) σ l)) =
      .ok (some (.conj kind l none false pos (ML σ noTree (fun _ a p => MT σ a false p) (lf3 true) l pos 0))) := by
    rw [polishStep, hcast]
    simp only [Outcome.bind_ok, hm, setPositions, hcast, Outcome.pure_eq]
    rw [← mapIdx_je σ l pos 0 hs]
    rfl
  rw [rewriteTd, hstep]
  simp only [Outcome.bind_ok, Option.getD_some]
  rw [ML_tryMap (d' := noTree) σ (rewriteTd polishStep fuel) (real' := fun _ => GT σ (lf3 false) (lf3 true)) (sim' := lf3 true) l pos 0 hs
    (fun j a hc hh => ih a hc.mem (hr a hc.mem hh) _ fuel (Nat.le_trans (sbDepth_mem hc.mem) hf)) (fun j p hc hh => ?_), GTL_eq]
  · rfl
  · obtain ⟨n, rfl⟩ : ∃ n, fuel = n + 1 := ⟨fuel - 1, by omega⟩
    rfl

theorem sbDepth_pos (a : SigmaBoolean G) : 0 < sbDepth a := by cases a <;> simp [sbDepth]

theorem sbDepthList_pos {l : List (SigmaBoolean G)} (h : 2 ≤ l.length) : 0 < sbDepthList l := by
  cases l with
  | nil => simp at h
  | cons a l => exact Nat.lt_of_lt_of_le (sbDepth_pos a) (sbDepth_mem List.mem_cons_self)

theorem polish_je (a : SigmaBoolean G) : a.Bounded → JustEnough σ a → ∀ pos, ∀ fuel, sbDepth a ≤ fuel →
    rewriteTd polishStep fuel (MT σ a false pos) = .ok (GT (q := q) σ (lf3 false) (lf3 true) a pos) := by
  induction a using SigmaBoolean.induct with
  | htriv b => intro _ h; exact h.elim
  | hdlog x =>
    intro _ _ pos fuel hf
    cases fuel with
    | zero => simp [sbDepth] at hf
    | succ n => rfl
  | hdht a b c d =>
    intro _ _ pos fuel hf
    cases fuel with
    | zero => simp [sbDepth] at hf
    | succ n => rfl
  | hcand l ih =>
    intro hb h pos fuel hf
    rw [sbDepth] at hf
    have := sbDepthList_pos hb.1
    cases fuel with
    | zero => omega
    | succ n =>
      rw [MT, GT]
      exact polish_je_conj σ l .and pos h.2 rfl n (fun a ha hj => ih a ha ((boundedList_iff l).1 hb.2.2 a ha) hj) (by omega) (by omega)
  | hcor l ih =>
    intro hb h pos fuel hf
    rw [sbDepth] at hf
    have := sbDepthList_pos hb.1
    cases fuel with
    | zero => omega
    | succ n =>
      rw [MT, GT]
      refine polish_je_conj σ l .or pos h.2 ?_ n (fun a ha hj => ih a ha ((boundedList_iff l).1 hb.2.2 a ha) hj) (by omega) (by omega)
      obtain ⟨c, c1, c2, c3⟩ := find_first (q := q) σ l (by rw [h.1]; simp)
      simp only [polishChildren, makeCorChildrenSimulated, castToUnp_ok (MTList_unproven σ l), Outcome.bind_ok, c3, Bool.false_eq_true, if_false]
      rw [or_je σ l _ (by rw [h.1]) c3]
      rfl
  | hcth k l ih =>
    intro hb h pos fuel hf
    rw [sbDepth] at hf
    have := sbDepthList_pos hb.1
    cases fuel with
    | zero => omega
    | succ n =>
      rw [MT, GT]
      refine polish_je_conj σ l (.thr k none) pos h.2 ?_ n (fun a ha hj => ih a ha ((boundedList_iff l).1 hb.2.2 a ha) hj) (by omega) (by omega)
      simp only [polishChildren, Bool.false_eq_true, if_false]
      rw [keep_je σ k.toNat l 0 (by rw [h.1]; omega)]

/-- A real leaf with its commitment. -/
def lf6 (cm : LeafProp G → Position → Msg G) (p : LeafProp G) (pos : Position) : ProofTree G q := .leaf p (some (cm p pos)) none none false pos

variable (cm : LeafProp G → Position → Msg G) (fs6 : LeafProp G → Position → ProofTree G q)

/-- What steps 4 and 5 do at the leaves. -/
structure Commits (ls : List (LeafProp G × Position)) : Prop where
  real : ∀ x ∈ ls, holds σ x.1.toSB = true → step5 E x.1 none none false x.2 = .ok (some (lf6 cm x.1 x.2))
  chal : ∀ x ∈ ls, holds σ x.1.toSB = false → (findPos (hintProofs E.hints) x.2).getD (E.rnd.challenge x.2) = simE x.2
  sim : ∀ x ∈ ls, holds σ x.1.toSB = false → step5 E x.1 none (some (simE x.2)) true x.2 = .ok (some (fs6 x.1 x.2))
  form : ∀ x ∈ ls, holds σ x.1.toSB = false → ∃ z, fs6 x.1 x.2 = .unchecked (.leaf x.1 (some (cm x.1 x.2)) (simE x.2) z) ∨
    fs6 x.1 x.2 = .leaf x.1 (some (cm x.1 x.2)) none (some (simE x.2)) true x.2

theorem Commits.sub {σ : Assignment G} {simE : Position → Challenge} {E : ProverEnv G q} {cm : LeafProp G → Position → Msg G}
    {fs6 : LeafProp G → Position → ProofTree G q} {ls ls' : List (LeafProp G × Position)} (h : Commits σ simE E cm fs6 ls)
    (hs : ∀ x ∈ ls', x ∈ ls) : Commits σ simE E cm fs6 ls' :=
  ⟨fun x hx => h.real x (hs x hx), fun x hx => h.chal x (hs x hx), fun x hx => h.sim x (hs x hx), fun x hx => h.form x (hs x hx)⟩

theorem GT_isUnproven (fr fs : LeafProp G → Position → ProofTree G q) (hf : ∀ p pos, (fr p pos).isUnproven = true) (a : SigmaBoolean G)
    (pos : Position) : (GT σ fr fs a pos).isUnproven = true := by
  cases a <;> first | rfl | exact hf _ _

theorem GT_isReal (fr fs : LeafProp G → Position → ProofTree G q) (hf : ∀ p pos, (fr p pos).isReal = true) (a : SigmaBoolean G)
    (pos : Position) (h : JustEnough σ a) : (GT σ fr fs a pos).isReal = true := by
  cases a <;> first | exact h.elim | rfl | exact hf _ _

theorem GT_challenge (fr fs : LeafProp G → Position → ProofTree G q) (hf : ∀ p pos, (fr p pos).challenge = none) (a : SigmaBoolean G)
    (pos : Position) : (GT σ fr fs a pos).challenge = none := by
  cases a <;> first | rfl | exact hf _ _

/-- The children of an OR or a threshold after step 4. -/
theorem step4_je (l : List (SigmaBoolean G)) (pos : Position) (hj : JustEnoughList σ l)
    (hc : ∀ x ∈ leavesAtList l pos 0, holds σ x.1.toSB = false → (findPos (hintProofs E.hints) x.2).getD (E.rnd.challenge x.2) = simE x.2) :
    step4RealChildren E (GTL (q := q) σ (lf3 false) (lf3 true) l pos 0) =
      .ok (ML σ noTree (fun _ => GT σ (lf3 false) (lf3 true)) (fun p pos => .leaf p none none (some (simE pos)) true pos) l pos 0) := by
  obtain ⟨hs, hr⟩ := (justEnoughList_iff σ l).1 hj
  unfold step4RealChildren
  rw [GTL_eq, castToUnp_ok (ML_all σ (fun c : ProofTree G q => c.isUnproven = true) l pos 0 hs
    (fun j a _ _ => GT_isUnproven σ _ _ (fun _ _ => rfl) a _) (fun j p _ _ => rfl)), Outcome.bind_ok, Outcome.pure_eq]
  congr 1
  refine ML_map σ _ l pos 0 hs (fun j a hch hh => ?_) (fun j p hch hh => ?_)
  · rw [GT_isReal σ _ _ (fun _ _ => rfl) a _ (hr a hch.mem hh)]; rfl
  · have := hc (p, pos ++ [j]) (hch.sub pos _ (by rw [leavesAt_toSB]; simp)) hh
    rw [if_neg (by simp [lf3, ProofTree.isReal, ProofTree.simulated])]
    show ProofTree.withChallenge ((findPos (hintProofs E.hints) (pos ++ [j])).getD (E.rnd.challenge (pos ++ [j]))) (lf3 true p (pos ++ [j])) = _
    simp only at this
    rw [this]; rfl

theorem td_leaf (F : ProofTree G q → Outcome (Option (ProofTree G q))) (t t' : ProofTree G q) (n : Nat) (hF : F t = .ok (some t'))
    (ht : ∀ k i e s pos cs, t' ≠ .conj k i e s pos cs) : rewriteTd F (n + 1) t = .ok t' := by
  rw [rewriteTd, hF]
  simp only [Outcome.bind_ok, Option.getD_some]
  cases t' with
  | conj k i e s pos cs => exact absurd rfl (ht _ _ _ _ _ _)
  | leaf _ _ _ _ _ _ => rfl
  | unchecked _ => rfl

theorem form_notConj {x : LeafProp G × Position} {t : ProofTree G q} {m : Msg G} {e : Challenge} (h : ∃ z, t = .unchecked (.leaf x.1 (some m) e z) ∨
    t = .leaf x.1 (some m) none (some e) true x.2) : ∀ k i e s pos cs, t ≠ .conj k i e s pos cs := by
  obtain ⟨z, rfl | rfl⟩ := h <;> simp

/-- The children of an OR or a threshold after steps 4 to 6. -/
theorem commit_je_list (l : List (SigmaBoolean G)) (pos : Position) (hj : JustEnoughList σ l) (fuel : Nat) (hf1 : 0 < fuel)
    (hc : Commits σ simE E cm fs6 (leavesAtList l pos 0)) (hf : sbDepthList l ≤ fuel)
    (ih : ∀ a ∈ l, JustEnough σ a → ∀ pos, Commits σ simE E cm fs6 (leavesAt a pos) → ∀ fuel, sbDepth a ≤ fuel →
      rewriteTd (commitStep E) fuel (GT σ (lf3 false) (lf3 true) a pos) = .ok (GT σ (lf6 cm) fs6 a pos))
    (s : LeafProp G → Position → ProofTree G q)
    (hsm : ∀ x ∈ leavesAtList l pos 0, holds σ x.1.toSB = false → s x.1 x.2 = .leaf x.1 none none (some (simE x.2)) true x.2) :
    tryMap (rewriteTd (commitStep E) fuel) (ML σ noTree (fun _ => GT σ (lf3 false) (lf3 true)) s l pos 0) =
      .ok (GTL σ (lf6 cm) fs6 l pos 0) := by
  obtain ⟨hs, hr⟩ := (justEnoughList_iff σ l).1 hj
  rw [GTL_eq]
  refine ML_tryMap σ _ l pos 0 hs (fun j a hch hh => ih a hch.mem (hr a hch.mem hh) _ (hc.sub (hch.sub pos)) fuel
    (Nat.le_trans (sbDepth_mem hch.mem) hf)) (fun j p hch hh => ?_)
  have hx : (p, pos ++ [j]) ∈ leavesAtList l pos 0 := hch.sub pos _ (by rw [leavesAt_toSB]; simp)
  obtain ⟨n, rfl⟩ : ∃ n, fuel = n + 1 := ⟨fuel - 1, by omega⟩
  refine td_leaf _ _ _ n ?_ (form_notConj (hc.form _ hx hh))
  rw [hsm _ hx hh]
  exact hc.sim _ hx hh

theorem commit_je (a : SigmaBoolean G) : a.Bounded → JustEnough σ a → ∀ pos, Commits σ simE E cm fs6 (leavesAt a pos) → ∀ fuel, sbDepth a ≤ fuel →
    rewriteTd (commitStep E) fuel (GT σ (lf3 false) (lf3 true) a pos) = .ok (GT σ (lf6 cm) fs6 a pos) := by
  induction a using SigmaBoolean.induct with
  | htriv b => intro _ h; exact h.elim
  | hdlog x =>
    intro _ h pos hc fuel hf
    cases fuel with
    | zero => simp [sbDepth] at hf
    | succ n => exact td_leaf _ _ _ n (hc.real (.dlog x, pos) (by simp [leavesAt]) h) (by simp [GT, lf6])
  | hdht a b c d =>
    intro _ h pos hc fuel hf
    cases fuel with
    | zero => simp [sbDepth] at hf
    | succ n => exact td_leaf _ _ _ n (hc.real (.dht a b c d, pos) (by simp [leavesAt]) h) (by simp [GT, lf6])
  | hcand l ih =>
    intro hb h pos hc fuel hf
    rw [sbDepth] at hf
    have := sbDepthList_pos hb.1
    cases fuel with
    | zero => omega
    | succ n =>
      rw [GT, GT, rewriteTd, commitStep]
      simp only [Bool.not_false, if_true, Outcome.bind_ok, Option.getD_none]
      have hall := (SigmaBoolean.holdsCount_all σ l).1 (by rw [h.1]; simp)
      obtain ⟨hs, hr⟩ := (justEnoughList_iff σ l).1 h.2
      have hl : tryMap (rewriteTd (commitStep E) n) (GTL σ (lf3 false) (lf3 true) l pos 0) = .ok (GTL σ (lf6 cm) fs6 l pos 0) := by
        rw [GTL_eq, GTL_eq]
        refine ML_tryMap σ _ l pos 0 hs (fun j a hch hh => ih a hch.mem ((boundedList_iff l).1 hb.2.2 a hch.mem) (hr a hch.mem hh) _
          (hc.sub (hch.sub pos)) n (Nat.le_trans (sbDepth_mem hch.mem) (by omega))) (fun j p hch hh => ?_)
        rw [hall _ hch.mem] at hh; cases hh
      rw [hl]; rfl
  | hcor l ih =>
    intro hb h pos hc fuel hf
    rw [sbDepth] at hf
    have := sbDepthList_pos hb.1
    cases fuel with
    | zero => omega
    | succ n =>
      rw [GT, GT, rewriteTd, commitStep]
      simp only [Bool.not_false, if_true]
      rw [step4_je σ simE E l pos h.2 hc.chal]
      simp only [Outcome.bind_ok, Outcome.pure_eq, Option.getD_some]
      rw [commit_je_list σ simE E cm fs6 l pos h.2 n (by omega) hc (by omega)
        (fun a ha hj pos => ih a ha ((boundedList_iff l).1 hb.2.2 a ha) hj pos) _ (fun _ _ _ => rfl)]
      rfl
  | hcth k l ih =>
    intro hb h pos hc fuel hf
    rw [sbDepth] at hf
    have := sbDepthList_pos hb.1
    cases fuel with
    | zero => omega
    | succ n =>
      rw [GT, GT, rewriteTd, commitStep]
      simp only [Bool.not_false, if_true]
      rw [step4_je σ simE E l pos h.2 hc.chal]
      simp only [Outcome.bind_ok, Outcome.pure_eq, Option.getD_some]
      rw [commit_je_list σ simE E cm fs6 l pos h.2 n (by omega) hc (by omega)
        (fun a ha hj pos => ih a ha ((boundedList_iff l).1 hb.2.2 a ha) hj pos) _ (fun _ _ _ => rfl)]
      rfl

/-! ### The bytes for the challenge -/

omit [DecidableEq G] [AddCommGroup G] [Module (ZMod q) G] in
/-- A finished leaf with its commitment. -/
def gm (cm : LeafProp G → Position → Msg G) (z : Position → ZMod q) (p : LeafProp G) (pos : Position) (e : Challenge) : Unchecked G q :=
  .leaf p (some (cm p pos)) e (z pos)

theorem forall₂_fs (pc : PointCodec G) {ts : List (ProofTree G q)} {us : List (Unchecked G q)}
    (h : List.Forall₂ (fun t u => fsProof pc t = fsUnchecked pc u) ts us) : fsProofList pc ts = fsUncheckedList pc us := by
  induction h with
  | nil => rfl
  | cons h _ ih => rw [fsProofList, fsUncheckedList, h, ih]

/-- What a simulated leaf looks like after step 6. -/
def SimForm (ls : List (LeafProp G × Position)) : Prop :=
  ∀ x ∈ ls, holds σ x.1.toSB = false → ∃ z, fs6 x.1 x.2 = .unchecked (.leaf x.1 (some (cm x.1 x.2)) (simE x.2) z) ∨
    fs6 x.1 x.2 = .leaf x.1 (some (cm x.1 x.2)) none (some (simE x.2)) true x.2

variable {σ simE cm fs6}

theorem SimForm.child {l : List (SigmaBoolean G)} {i j : Nat} {pos : Position} {p : LeafProp G} (h : SimForm σ simE cm fs6 (leavesAtList l pos i))
    (hc : Child l i j p.toSB) (hh : holds σ p.toSB = false) :
    ∃ z, fs6 p (pos ++ [j]) = .unchecked (.leaf p (some (cm p (pos ++ [j]))) (simE (pos ++ [j])) z) ∨
    fs6 p (pos ++ [j]) = .leaf p (some (cm p (pos ++ [j]))) none (some (simE (pos ++ [j]))) true (pos ++ [j]) :=
  h (p, pos ++ [j]) (hc.sub pos _ (by rw [leavesAt_toSB]; simp)) hh

theorem fs_je_list (pc : PointCodec G) (z : Position → ZMod q) (l : List (SigmaBoolean G)) (pos : Position) (ec : Nat → Challenge)
    (hj : JustEnoughList σ l) (hf : SimForm σ simE cm fs6 (leavesAtList l pos 0))
    (ih : ∀ a ∈ l, JustEnough σ a → ∀ e pos, SimForm σ simE cm fs6 (leavesAt a pos) →
      fsProof pc (GT σ (lf6 cm) fs6 a pos) = fsUnchecked pc (UJ σ simE (gm cm z) e a pos)) :
    fsProofList pc (GTL σ (lf6 cm) fs6 l pos 0) = fsUncheckedList pc (UJL σ simE (gm cm z) ec l pos 0) ∧
    (GTL σ (lf6 cm) fs6 l pos 0).length = (UJL σ simE (gm cm z) ec l pos 0).length := by
  obtain ⟨hs, hr⟩ := (justEnoughList_iff σ l).1 hj
  rw [GTL_eq, UJL_eq, ML_length, ML_length]
  refine ⟨forall₂_fs pc (ML_forall₂ σ _ l pos 0 hs (fun j a hc hh => ih a hc.mem (hr a hc.mem hh) _ _ (fun x hx => hf x (hc.sub pos x hx)))
    (fun j p hc hh => ?_)), rfl⟩
  obtain ⟨z, h | h⟩ := hf.child hc hh <;> rw [h] <;> rfl

theorem fs_je (pc : PointCodec G) (z : Position → ZMod q) (a : SigmaBoolean G) : JustEnough σ a → ∀ e pos, SimForm σ simE cm fs6 (leavesAt a pos) →
    fsProof pc (GT σ (lf6 cm) fs6 a pos) = fsUnchecked pc (UJ σ simE (gm cm z) e a pos) := by
  induction a using SigmaBoolean.induct with
  | htriv b => intro h; exact h.elim
  | hdlog x => intro _ e pos _; rfl
  | hdht a b c d => intro _ e pos _; rfl
  | hcand l ih =>
    intro h e pos hf
    obtain ⟨h1, h2⟩ := fs_je_list pc z l pos (fun _ => e) h.2 hf ih
    rw [GT, UJ, fsProof, fsUnchecked, h1, h2]; rfl
  | hcor l ih =>
    intro h e pos hf
    obtain ⟨h1, h2⟩ := fs_je_list pc z l pos (fun _ => orCh σ simE e l pos) h.2 hf ih
    rw [GT, UJ, fsProof, fsUnchecked, h1, h2]; rfl
  | hcth k l ih =>
    intro h e pos hf
    obtain ⟨h1, h2⟩ := fs_je_list pc z l pos (thrCh σ simE e l pos) h.2 hf ih
    rw [GT, UJ, fsProof, fsUnchecked, h1, h2]; rfl

/-- They do not depend on challenges and responses. -/
theorem fsj_indep (pc : PointCodec G) (e e' : Challenge) (z z' : Position → ZMod q) (a : SigmaBoolean G) (pos : Position) (h : JustEnough σ a) :
    fsUnchecked pc (UJ σ simE (gm cm z) e a pos) = fsUnchecked pc (UJ σ simE (gm cm z') e' a pos) := by
  have hf : SimForm (q := q) σ simE cm (fun p pos => .leaf p (some (cm p pos)) none (some (simE pos)) true pos) (leavesAt a pos) :=
    fun x _ _ => ⟨0, .inr rfl⟩
  rw [← fs_je pc z a h e pos hf, fs_je pc z' a h e' pos hf]

mutual
theorem fsj_total (pc : PointCodec G) (z : Position → ZMod q) : ∀ (e : Challenge) (a : SigmaBoolean G) (pos : Position),
    ∃ bs, fsUnchecked pc (UJ σ simE (gm cm z) e a pos) = .ok bs
  | _, .trivial _, _ => ⟨_, rfl⟩
  | _, .dlog _, _ => ⟨_, rfl⟩
  | _, .dht _ _ _ _, _ => ⟨_, rfl⟩
  | e, .cand l, pos => by
    obtain ⟨bs, hb⟩ := fsj_totalList pc z (fun _ => e) l pos 0
    exact ⟨_, by rw [UJ, fsUnchecked, hb]; rfl⟩
  | e, .cor l, pos => by
    obtain ⟨bs, hb⟩ := fsj_totalList pc z (fun _ => orCh σ simE e l pos) l pos 0
    exact ⟨_, by rw [UJ, fsUnchecked, hb]; rfl⟩
  | e, .cth k l, pos => by
    obtain ⟨bs, hb⟩ := fsj_totalList pc z (thrCh σ simE e l pos) l pos 0
    exact ⟨_, by rw [UJ, fsUnchecked, hb]; rfl⟩
theorem fsj_totalList (pc : PointCodec G) (z : Position → ZMod q) : ∀ (ec : Nat → Challenge) (l : List (SigmaBoolean G)) (pos : Position) (i : Nat),
    ∃ bs, fsUncheckedList pc (UJL σ simE (gm cm z) ec l pos i) = .ok bs
  | _, [], _, _ => ⟨_, rfl⟩
  | ec, a :: l, pos, i => by
    obtain ⟨bs, h2⟩ := fsj_totalList pc z ec l pos (i + 1)
    have h1 : ∃ b, fsUnchecked pc (if holds σ a then UJ σ simE (gm cm z) (ec i) a (pos ++ [i])
        else onLeaf noProof (fun p => gm cm z p (pos ++ [i]) (simE (pos ++ [i]))) a) = .ok b := by
      cases hh : holds σ a
      · simp only [Bool.false_eq_true, if_false]
        cases a <;> exact ⟨_, rfl⟩
      · simp only [if_true]
        exact fsj_total pc z (ec i) a _
    obtain ⟨b, h1⟩ := h1
    exact ⟨b ++ bs, by rw [UJL, fsUncheckedList, h1, Outcome.bind_ok, h2]; rfl⟩
end

/-! ### Steps 8 and 9 -/

variable (σ cm) in
/-- A leaf of the tree the prover finishes: commitments stay only in simulated ones. -/
def g9 (z : Position → ZMod q) (p : LeafProp G) (pos : Position) (e : Challenge) : Unchecked G q :=
  .leaf p (if holds σ p.toSB then none else some (cm p pos)) e (z pos)

theorem step9Or_eq (e : Challenge) (cs : List (ProofTree G q)) : step9OrChildren e cs =
    cs.map fun c => if c.isReal then c.withChallenge (e.xor (xorAll ((cs.map ProofTree.challenge).filterMap id))) else c := by
  have h : ∀ (ts : List (ProofTree G q)) (acc : Challenge),
      ts.foldl (fun acc c => match c.challenge with | some ec => acc.xor ec | none => acc) acc =
        acc.xor (xorAll ((ts.map ProofTree.challenge).filterMap id)) := by
    intro ts
    induction ts with
    | nil => intro acc; exact (xor_zero acc).symm
    | cons t ts ih =>
      intro acc
      rw [List.foldl_cons, ih, List.map_cons]
      cases t.challenge with
      | none => rfl
      | some ec => rw [fm_some, xorAll, xor_assoc]
  rw [← h]
  rfl

theorem step9Points_eq : ∀ (ts : List (ProofTree G q)) (i : Nat), (∀ t ∈ ts, ∀ k e cs, t ≠ .unchecked (.conj k e cs)) →
    step9Points i ts = .ok (pv i (ts.map ProofTree.challenge))
  | [], _, _ => rfl
  | t :: ts, i, h => by
    rw [step9Points, step9Points_eq ts (i + 1) (fun t ht => h t (List.mem_cons_of_mem _ ht)), Outcome.bind_ok, List.map_cons]
    · cases ht : t.challenge with
      | none => simp only [pv, ht]; rfl
      | some e => simp only [pv, ht]; rfl
    · intro k e cs ht
      exact h t List.mem_cons_self k e cs ht

/-- The challenges already given out. -/
theorem GTL_challenges (l : List (SigmaBoolean G)) (pos : Position) (hj : JustEnoughList σ l)
    (hf : SimForm σ simE cm fs6 (leavesAtList l pos 0)) : (GTL σ (lf6 cm) fs6 l pos 0).map ProofTree.challenge = simChs σ simE l pos 0 := by
  obtain ⟨hs, hr⟩ := (justEnoughList_iff σ l).1 hj
  rw [GTL_eq]
  refine ML_map σ _ l pos 0 hs (fun j a hc hh => GT_challenge σ _ _ (fun _ _ => rfl) a _) (fun j p hc hh => ?_)
  obtain ⟨z, h | h⟩ := hf.child hc hh <;> rw [h] <;> rfl

theorem sim_notReal {p : LeafProp G} {pos : Position} {t : ProofTree G q} {m : Msg G} {e : Challenge}
    (h : ∃ z, t = .unchecked (.leaf p (some m) e z) ∨ t = .leaf p (some m) none (some e) true pos) : t.isReal = false := by
  obtain ⟨z, rfl | rfl⟩ := h <;> rfl

/-- What step 9 does at the leaves. -/
structure Proves (z : Position → ZMod q) (ls : List (LeafProp G × Position × Challenge)) : Prop where
  real : ∀ x ∈ ls, holds σ x.1.toSB = true → step9Response E x.1 none x.2.2 x.2.1 = .ok (z x.2.1)
  sim : ∀ x ∈ ls, holds σ x.1.toSB = false → ∀ n, rewriteTd (provingStep E) (n + 1) (fs6 x.1 x.2.1) = .ok (.unchecked (g9 σ cm z x.1 x.2.1 x.2.2))

theorem Child.simc {l : List (SigmaBoolean G)} {i j : Nat} {p : LeafProp G} (h : Child l i j p.toSB) (hh : holds σ p.toSB = false)
    (ec : Nat → Challenge) (pos : Position) : (p, pos ++ [j], simE (pos ++ [j])) ∈ LJL σ simE ec l pos i := by
  obtain ⟨n, rfl, h⟩ := h
  induction l generalizing i n with
  | nil => simp at h
  | cons b l ih =>
    rw [LJL]
    cases n with
    | zero =>
      simp only [List.getElem?_cons_zero, Option.some.injEq] at h
      subst h
      rw [if_neg (by simp [hh]), onLeaf_toSB]
      simp
    | succ n =>
      rw [List.getElem?_cons_succ] at h
      have := ih (i := i + 1) n h
      rw [show i + 1 + n = i + (n + 1) by omega] at this
      exact List.mem_append_right _ this

theorem prove_je_list (z : Position → ZMod q) (l : List (SigmaBoolean G)) (pos : Position) (ec : Nat → Challenge) (hj : JustEnoughList σ l)
    (hp : Proves (σ := σ) (cm := cm) (fs6 := fs6) E z (LJL σ simE ec l pos 0)) (fuel : Nat) (hf1 : 0 < fuel) (hf : sbDepthList l ≤ fuel)
    (hform : SimForm σ simE cm fs6 (leavesAtList l pos 0))
    (ih : ∀ a ∈ l, JustEnough σ a → ∀ e pos, Proves (σ := σ) (cm := cm) (fs6 := fs6) E z (LJ σ simE e a pos) → SimForm σ simE cm fs6 (leavesAt a pos) → ∀ fuel,
      sbDepth a ≤ fuel → rewriteTd (provingStep E) fuel ((GT σ (lf6 cm) fs6 a pos).withChallenge e) = .ok (PT9 σ simE (g9 σ cm z) e a pos)) :
    tryMap (rewriteTd (provingStep E) fuel) (ML σ noTree (fun j a p => (GT σ (lf6 cm) fs6 a p).withChallenge (ec j)) fs6 l pos 0) =
      .ok (PT9L σ simE (g9 σ cm z) ec l pos 0) := by
  obtain ⟨hs, hr⟩ := (justEnoughList_iff σ l).1 hj
  rw [PT9L_eq]
  refine ML_tryMap σ _ l pos 0 hs (fun j a hc hh => ih a hc.mem (hr a hc.mem hh) _ _ ?_ (fun x hx => hform x (hc.sub pos x hx)) fuel
    (Nat.le_trans (sbDepth_mem hc.mem) hf)) (fun j p hc hh => ?_)
  · exact ⟨fun x hx => hp.real x (hc.subc σ simE hh ec pos x hx), fun x hx => hp.sim x (hc.subc σ simE hh ec pos x hx)⟩
  · obtain ⟨n, rfl⟩ : ∃ n, fuel = n + 1 := ⟨fuel - 1, by omega⟩
    exact hp.sim _ (hc.simc hh ec pos) hh n

theorem thrChildren_je (poly : Gf.Poly) (hpoly : Gf.PolyOk poly) : ∀ (l : List (SigmaBoolean G)) (pos : Position) (i : Nat), JustEnoughList σ l →
    SimForm σ simE cm fs6 (leavesAtList l pos i) → step9ThrChildren poly i (GTL σ (lf6 cm) fs6 l pos i) =
      .ok (ML σ noTree (fun j a p => (GT σ (lf6 cm) fs6 a p).withChallenge
        (.ofGf (gfEval poly.coefficients (gfByte (BitVec.ofNat 8 (j + 1)))))) fs6 l pos i)
  | [], _, _, _, _ => rfl
  | a :: l, pos, i, h, hf => by
    have h2 := thrChildren_je poly hpoly l pos (i + 1) h.2 (fun x hx => hf x (by rw [leavesAtList]; exact List.mem_append_right _ hx))
    rw [GTL, step9ThrChildren, ML, h2]
    have h1 : step9ThrChild poly i (if holds σ a then GT σ (lf6 cm) fs6 a (pos ++ [i]) else onLeaf noTree (fun p => fs6 p (pos ++ [i])) a) =
        .ok (if holds σ a then (GT σ (lf6 cm) fs6 a (pos ++ [i])).withChallenge
          (.ofGf (gfEval poly.coefficients (gfByte (BitVec.ofNat 8 (i + 1))))) else onLeaf noTree (fun p => fs6 p (pos ++ [i])) a) := by
      rcases h.1 with ⟨h1, h2⟩ | ⟨h1, p, rfl⟩
      · rw [if_pos h1, if_pos h1, step9ThrChild, GT_isReal σ _ _ (fun _ _ => rfl) a _ h2, if_pos rfl, Gf.evaluate_eq hpoly]
        rfl
      · rw [if_neg (by simp [h1]), if_neg (by simp [h1]), onLeaf_toSB, step9ThrChild,
          sim_notReal (hf.child .head h1)]
        rfl
    rw [h1]
    rfl

theorem prove_je (z : Position → ZMod q) (a : SigmaBoolean G) : a.Bounded → JustEnough σ a → ∀ e pos,
    Proves (σ := σ) (cm := cm) (fs6 := fs6) E z (LJ σ simE e a pos) → SimForm σ simE cm fs6 (leavesAt a pos) → ∀ fuel, sbDepth a ≤ fuel →
    rewriteTd (provingStep E) fuel ((GT σ (lf6 cm) fs6 a pos).withChallenge e) = .ok (PT9 σ simE (g9 σ cm z) e a pos) := by
  have hleaf : ∀ (p : LeafProp G) (h : holds σ p.toSB = true) (e : Challenge) (pos : Position) (n : Nat),
      step9Response E p none e pos = .ok (z pos) →
      rewriteTd (provingStep E) (n + 1) ((lf6 (q := q) cm p pos).withChallenge e) = .ok (.unchecked (g9 σ cm z p pos e)) := by
    intro p h e pos n hr
    refine td_leaf _ _ _ n ?_ (by simp)
    unfold lf6 g9
    rw [ProofTree.withChallenge, provingStep, if_pos h]
    simp only [Bool.not_false, if_true, step9Leaf, hr, Outcome.bind_ok]
    rfl
  induction a using SigmaBoolean.induct with
  | htriv b => intro _ h; exact h.elim
  | hdlog x =>
    intro _ h e pos hp hf fuel hfu
    cases fuel with
    | zero => simp [sbDepth] at hfu
    | succ n => exact hleaf (.dlog x) h e pos n (hp.real (.dlog x, pos, e) (by simp [LJ]) h)
  | hdht a b c d =>
    intro _ h e pos hp hf fuel hfu
    cases fuel with
    | zero => simp [sbDepth] at hfu
    | succ n => exact hleaf (.dht a b c d) h e pos n (hp.real (.dht a b c d, pos, e) (by simp [LJ]) h)
  | hcand l ih =>
    intro hb h e pos hp hf fuel hfu
    rw [sbDepth] at hfu
    have := sbDepthList_pos hb.1
    cases fuel with
    | zero => omega
    | succ n =>
      have hall := (SigmaBoolean.holdsCount_all σ l).1 (by rw [h.1]; simp)
      obtain ⟨hs, hr⟩ := (justEnoughList_iff σ l).1 h.2
      rw [GT, PT9, ProofTree.withChallenge, rewriteTd, provingStep]
      simp only [Bool.false_eq_true, if_false, Outcome.bind_ok, Option.getD_some]
      have hm : (GTL σ (lf6 cm) fs6 l pos 0).map (ProofTree.withChallenge e) =
          ML σ noTree (fun j a p => (GT σ (lf6 cm) fs6 a p).withChallenge e) fs6 l pos 0 := by
        rw [GTL_eq]
        refine ML_map σ _ l pos 0 hs (fun j a hc hh => rfl) (fun j p hc hh => ?_)
        rw [hall _ hc.mem] at hh; cases hh
      rw [hm, prove_je_list E z l pos (fun _ => e) h.2 hp n (by omega) (by omega) hf
        (fun a ha hj e pos => ih a ha ((boundedList_iff l).1 hb.2.2 a ha) hj e pos)]
      rfl
  | hcor l ih =>
    intro hb h e pos hp hf fuel hfu
    rw [sbDepth] at hfu
    have := sbDepthList_pos hb.1
    cases fuel with
    | zero => omega
    | succ n =>
      obtain ⟨hs, hr⟩ := (justEnoughList_iff σ l).1 h.2
      rw [GT, PT9, ProofTree.withChallenge, rewriteTd, provingStep]
      simp only [Bool.false_eq_true, if_false, Outcome.bind_ok, Option.getD_some]
      have hm : step9OrChildren e (GTL σ (lf6 cm) fs6 l pos 0) =
          ML σ noTree (fun j a p => (GT σ (lf6 cm) fs6 a p).withChallenge (orCh σ simE e l pos)) fs6 l pos 0 := by
        rw [step9Or_eq, GTL_challenges l pos h.2 hf]
        conv_lhs => rw [GTL_eq]
        refine ML_map σ _ l pos 0 hs (fun j a hc hh => ?_) (fun j p hc hh => ?_)
        · rw [GT_isReal σ _ _ (fun _ _ => rfl) a _ (hr a hc.mem hh)]; rfl
        · rw [sim_notReal (hf.child hc hh)]; rfl
      rw [hm, prove_je_list E z l pos (fun _ => orCh σ simE e l pos) h.2 hp n (by omega) (by omega) hf
        (fun a ha hj e pos => ih a ha ((boundedList_iff l).1 hb.2.2 a ha) hj e pos)]
      rfl
  | hcth k l ih =>
    intro hb h e pos hp hf fuel hfu
    rw [sbDepth] at hfu
    have := sbDepthList_pos hb.1
    cases fuel with
    | zero => omega
    | succ n =>
      obtain ⟨hs, hr⟩ := (justEnoughList_iff σ l).1 h.2
      obtain ⟨h1, h2, h3, h4, h5, h6⟩ := thrPoly_ok σ simE e l pos k hb.2.1 hs h.1
      have hle := SigmaBoolean.holdsCount_le σ l
      rw [GT, PT9, ProofTree.withChallenge, rewriteTd, provingStep]
      have hpt : step9Points 0 (GTL σ (lf6 cm) fs6 l pos 0) = .ok (pv 0 (simChs σ simE l pos 0)) := by
        rw [step9Points_eq, GTL_challenges l pos h.2 hf]
        rw [GTL_eq]
        refine ML_all σ _ l pos 0 hs (fun j a hc hh => ?_) (fun j p hc hh => ?_)
        · intro k e cs he
          have := GT_isUnproven (q := q) σ (lf6 cm) fs6 (fun _ _ => rfl) a (pos ++ [j])
          rw [he] at this; cases this
        · intro k e cs he
          obtain ⟨z, h | h⟩ := hf.child hc hh <;> rw [h] at he <;> simp at he
      simp only [Bool.false_eq_true, if_false, hpt, Outcome.bind_ok, h1, thrChildren_je _ h2 l pos 0 h.2 hf,
        withPolynomial_ok k l _ e (by rw [← h.1]; exact hle) h3 h4 h5, Outcome.pure_eq, Option.getD_some]
      have hl := prove_je_list E z l pos (thrCh σ simE e l pos) h.2 hp n (by omega) (by omega) hf
        (fun a ha hj e pos => ih a ha ((boundedList_iff l).1 hb.2.2 a ha) hj e pos)
      exact congrArg (· >>= fun cs' => Outcome.ok (ProofTree.conj (PKind.thr k (some (thrPoly σ simE e l pos))) l (some e) false pos cs')) hl

theorem forall₂_uncheck {ts : List (ProofTree G q)} {us : List (Unchecked G q)}
    (h : List.Forall₂ (fun t u => convertToUnchecked t = .ok u) ts us) : convertToUncheckedList ts = .ok us := by
  induction h with
  | nil => rfl
  | cons h _ ih => rw [convertToUncheckedList, h, Outcome.bind_ok, ih]; rfl

theorem uncheck_je (z : Position → ZMod q) (a : SigmaBoolean G) : JustEnough σ a → ∀ e pos,
    convertToUnchecked (PT9 σ simE (g9 σ cm z) e a pos) = .ok (UJ σ simE (g9 σ cm z) e a pos) := by
  have hl : ∀ (l : List (SigmaBoolean G)) (ec : Nat → Challenge) (pos : Position), JustEnoughList σ l →
      (∀ a ∈ l, JustEnough σ a → ∀ e pos, convertToUnchecked (PT9 σ simE (g9 σ cm z) e a pos) = .ok (UJ σ simE (g9 σ cm z) e a pos)) →
      convertToUncheckedList (PT9L σ simE (g9 σ cm z) ec l pos 0) = .ok (UJL σ simE (g9 σ cm z) ec l pos 0) := by
    intro l ec pos hj ih
    obtain ⟨hs, hr⟩ := (justEnoughList_iff σ l).1 hj
    rw [PT9L_eq, UJL_eq]
    exact forall₂_uncheck (ML_forall₂ σ _ l pos 0 hs (fun j a hc hh => ih a hc.mem (hr a hc.mem hh) _ _) (fun j p hc hh => rfl))
  induction a using SigmaBoolean.induct with
  | htriv b => intro h; exact h.elim
  | hdlog x => intro _ e pos; rfl
  | hdht a b c d => intro _ e pos; rfl
  | hcand l ih => intro h e pos; rw [PT9, UJ, convertToUnchecked, hl l _ pos h.2 ih]; rfl
  | hcor l ih => intro h e pos; rw [PT9, UJ, convertToUnchecked, hl l _ pos h.2 ih]; rfl
  | hcth k l ih => intro h e pos; rw [PT9, UJ, convertToUnchecked, hl l _ pos h.2 ih]; rfl

/-- The whole prover when just enough parties sign. -/
theorem generate_je (sb : SigmaBoolean G) (hb : sb.Bounded) (h : JustEnough σ sb)
    (hk : ∀ x ∈ leaves sb, knownLeaf E x.1 = holds σ x.1.toSB) (hc : Commits σ simE E cm fs6 (leaves sb)) (message bs : Bytes) (e : Challenge)
    (z : Position → ZMod q) (hbs : fsUnchecked E.curve.codec (UJ σ simE (gm cm z) e sb cryptoTreePrefix) = .ok bs)
    (he : e = fsHash E.curve.hash (bs ++ message)) (hp : Proves (σ := σ) (cm := cm) (fs6 := fs6) E z (LJ σ simE e sb cryptoTreePrefix)) :
    generateProof E sb message = serializeSig (UJ σ simE (g9 σ cm z) e sb cryptoTreePrefix) := by
  obtain ⟨t0, c1, c2⟩ := mark_je σ E sb cryptoTreePrefix (justEnough_noTrivial σ sb h) hk
  have hform : SimForm σ simE cm fs6 (leavesAt sb cryptoTreePrefix) := hc.form
  have hpv : proveToUnchecked E (sbDepth sb) t0 message = .ok (UJ σ simE (g9 σ cm z) e sb cryptoTreePrefix) := by
    unfold proveToUnchecked markReal polishSimulated simulateAndCommit proving
    rw [justEnough_holds σ sb h] at c2
    have hu : (MT (q := q) σ sb false cryptoTreePrefix).isUnproven = true := by cases sb <;> first | exact h.elim | rfl
    simp only [c2, Outcome.bind_ok, expectUnproven, hu, if_true, MT_isReal, Bool.not_true, Bool.not_false, Bool.false_eq_true, if_false,
      polish_je σ sb hb h cryptoTreePrefix _ (Nat.le_refl _), GT_isUnproven σ (lf3 (q := q) false) (lf3 true) (fun _ _ => rfl) sb cryptoTreePrefix,
      commit_je σ simE E cm fs6 sb hb h cryptoTreePrefix hc _ (Nat.le_refl _), GT_isUnproven σ (lf6 (q := q) cm) fs6 (fun _ _ => rfl) sb cryptoTreePrefix,
      fs_je E.curve.codec z sb h e cryptoTreePrefix hform, hbs, ← he, prove_je E z sb hb h e cryptoTreePrefix hp hform _ (Nat.le_refl _),
      uncheck_je z sb h]
  have hg : generateProof E sb message = (do
      let tree ← convertToUnproven sb
      let t ← proveToUnchecked E (sbDepth sb) tree message
      serializeSig t) := by
    cases sb <;> first | exact h.elim | rfl
  rw [hg, c1, Outcome.bind_ok, hpv, Outcome.bind_ok]

/-! ### The finished tree -/

theorem UJ_map (F : Unchecked G q → Unchecked G q) (hF : ∀ k e cs, F (.conj k e cs) = .conj k e (cs.map F))
    {g g' : LeafProp G → Position → Challenge → Unchecked G q} (hg : ∀ p pos e, F (g p pos e) = g' p pos e) (a : SigmaBoolean G) :
    ∀ e pos, F (UJ σ simE g e a pos) = UJ σ simE g' e a pos := by
  have hno : F (noProof (G := G) (q := q)) = noProof := by unfold noProof; rw [hF]; rfl
  have hl : ∀ (l : List (SigmaBoolean G)), (∀ a ∈ l, ∀ e pos, F (UJ σ simE g e a pos) = UJ σ simE g' e a pos) → ∀ (ec : Nat → Challenge)
      (pos : Position) (i : Nat), (UJL σ simE g ec l pos i).map F = UJL σ simE g' ec l pos i := by
    intro l
    induction l with
    | nil => intros; rfl
    | cons a l ih =>
      intro ha ec pos i
      rw [UJL, UJL, List.map_cons, ih (fun b hb => ha b (List.mem_cons_of_mem _ hb))]
      congr 1
      cases hh : holds σ a
      · simp only [Bool.false_eq_true, if_false]
        cases a <;> first | exact hno | exact hg _ _ _
      · simp only [if_true]
        exact ha a List.mem_cons_self _ _
  induction a using SigmaBoolean.induct with
  | htriv b => intro e pos; exact hno
  | hdlog x => intro e pos; exact hg _ _ _
  | hdht a b c d => intro e pos; exact hg _ _ _
  | hcand l ih => intro e pos; rw [UJ, UJ, hF, hl l ih]
  | hcor l ih => intro e pos; rw [UJ, UJ, hF, hl l ih]
  | hcth k l ih => intro e pos; rw [UJ, UJ, hF, hl l ih]

theorem clearList_map : ∀ cs : List (Unchecked G q), clearCommitmentsList cs = cs.map clearCommitments
  | [] => rfl
  | c :: cs => by rw [clearCommitmentsList, List.map_cons, clearList_map cs]

theorem computeList_map (C : Curve G) : ∀ cs : List (Unchecked G q), computeCommitmentsList C cs = cs.map (computeCommitments C)
  | [] => rfl
  | c :: cs => by rw [computeCommitmentsList, List.map_cons, computeList_map C cs]

/-- Recomputed commitments at a leaf. -/
def gc (C : Curve G) (z : Position → ZMod q) (p : LeafProp G) (pos : Position) (e : Challenge) : Unchecked G q :=
  .leaf p (some (computeCommitment C p e (z pos))) e (z pos)

/-- Computing commitments forgets what was there. -/
theorem UJ_compute (C : Curve G) (z : Position → ZMod q) {g : LeafProp G → Position → Challenge → Unchecked G q}
    (hg : ∀ p pos e, ∃ m, g p pos e = .leaf p m e (z pos)) (e : Challenge) (a : SigmaBoolean G) (pos : Position) :
    computeCommitments C (UJ σ simE g e a pos) = UJ σ simE (gc C z) e a pos := by
  refine UJ_map _ (fun k e cs => by rw [computeCommitments, computeList_map]) (fun p pos e => ?_) a e pos
  obtain ⟨m, hm⟩ := hg p pos e
  rw [hm]; rfl

theorem UJ_clear_compute (C : Curve G) (z : Position → ZMod q) {g : LeafProp G → Position → Challenge → Unchecked G q}
    (hg : ∀ p pos e, ∃ m, g p pos e = .leaf p m e (z pos)) (e : Challenge) (a : SigmaBoolean G) (pos : Position) :
    computeCommitments C (clearCommitments (UJ σ simE g e a pos)) = UJ σ simE (gc C z) e a pos := by
  have : clearCommitments (UJ σ simE g e a pos) = UJ σ simE (fun p pos e => .leaf p none e (z pos)) e a pos := by
    refine UJ_map _ (fun k e cs => by rw [clearCommitments, clearList_map]) (fun p pos e => ?_) a e pos
    obtain ⟨m, hm⟩ := hg p pos e
    rw [hm]; rfl
  rw [this, UJ_compute C z (fun p pos e => ⟨none, rfl⟩)]

mutual
theorem UJ_valid (C : Curve G) (g : LeafProp G → Position → Challenge → Unchecked G q) : ∀ (e : Challenge) (a : SigmaBoolean G) (pos : Position),
    JustEnough σ a → (∀ x ∈ LJ σ simE e a pos, AllValid C.gen (g x.1 x.2.1 x.2.2)) → AllValid C.gen (UJ σ simE g e a pos)
  | _, .trivial _, _, h, _ => h.elim
  | e, .dlog h, pos, _, hv => hv (.dlog h, pos, e) (by simp [LJ])
  | e, .dht a b c d, pos, _, hv => hv (.dht a b c d, pos, e) (by simp [LJ])
  | e, .cand l, pos, h, hv => UJL_valid C g _ l pos 0 h.2 hv
  | e, .cor l, pos, h, hv => UJL_valid C g _ l pos 0 h.2 hv
  | e, .cth _ l, pos, h, hv => UJL_valid C g _ l pos 0 h.2 hv
theorem UJL_valid (C : Curve G) (g : LeafProp G → Position → Challenge → Unchecked G q) : ∀ (ec : Nat → Challenge) (l : List (SigmaBoolean G))
    (pos : Position) (i : Nat), JustEnoughList σ l → (∀ x ∈ LJL σ simE ec l pos i, AllValid C.gen (g x.1 x.2.1 x.2.2)) →
    AllValidList C.gen (UJL σ simE g ec l pos i)
  | _, [], _, _, _, _ => trivial
  | ec, a :: l, pos, i, h, hv => by
    rw [UJL]
    rw [LJL] at hv
    refine ⟨?_, UJL_valid C g ec l pos (i + 1) h.2 (fun x hx => hv x (List.mem_append_right _ hx))⟩
    rcases h.1 with ⟨h1, h2⟩ | ⟨h1, p, rfl⟩
    · rw [if_pos h1] at hv ⊢
      exact UJ_valid C g _ a _ h2 (fun x hx => hv x (List.mem_append_left _ hx))
    · rw [if_neg (by simp [h1]), onLeaf_toSB] at hv ⊢
      exact hv _ (List.mem_append_left _ (List.mem_singleton.2 rfl))
end

/-- The hints made from one leaf. -/
def leafHints (C : Curve G) (z : Position → ZMod q) (real sim : List (SigmaBoolean G)) (x : LeafProp G × Position × Challenge) : List (Hint G q) :=
  if real.any (fun i => i.beq x.1.toSB) then
    [.realCommitment x.1.toSB (computeCommitment C x.1 x.2.2 (z x.2.1)) x.2.1, .realProof x.1.toSB x.2.2 (gc C z x.1 x.2.1 x.2.2) x.2.1]
  else if sim.any (fun i => i.beq x.1.toSB) then
    [.simulatedCommitment x.1.toSB (computeCommitment C x.1 x.2.2 (z x.2.1)) x.2.1,
     .simulatedProof x.1.toSB x.2.2 (gc C z x.1 x.2.1 x.2.2) x.2.1]
  else []

theorem bag_leaf (C : Curve G) (z : Position → ZMod q) (real sim : List (SigmaBoolean G)) (p : LeafProp G) (pos : Position) (e : Challenge) :
    bagNode real sim (gc C z p pos e) pos = .ok (leafHints C z real sim (p, pos, e)) := by
  unfold gc leafHints
  rw [bagNode]
  by_cases h1 : real.any (fun i => i.beq p.toSB) = true
  · simp only [h1, if_true]; rfl
  · by_cases h2 : sim.any (fun i => i.beq p.toSB) = true
    · simp only [h1, h2, if_true]; rfl
    · simp only [h1, h2]; rfl

mutual
theorem bag_je (C : Curve G) (z : Position → ZMod q) (real sim : List (SigmaBoolean G)) : ∀ (e : Challenge) (a : SigmaBoolean G) (pos : Position),
    JustEnough σ a → bagNode real sim (UJ σ simE (gc C z) e a pos) pos = .ok ((LJ σ simE e a pos).flatMap (leafHints C z real sim))
  | _, .trivial _, _, h => h.elim
  | e, .dlog h, pos, _ => by rw [UJ, LJ, bag_leaf]; simp
  | e, .dht a b c d, pos, _ => by rw [UJ, LJ, bag_leaf]; simp
  | e, .cand l, pos, h => by rw [UJ, LJ, bagNode, bag_jeList C z real sim _ l pos 0 h.2]
  | e, .cor l, pos, h => by rw [UJ, LJ, bagNode, bag_jeList C z real sim _ l pos 0 h.2]
  | e, .cth _ l, pos, h => by rw [UJ, LJ, bagNode, bag_jeList C z real sim _ l pos 0 h.2]
theorem bag_jeList (C : Curve G) (z : Position → ZMod q) (real sim : List (SigmaBoolean G)) : ∀ (ec : Nat → Challenge) (l : List (SigmaBoolean G))
    (pos : Position) (i : Nat), JustEnoughList σ l →
    bagNodes real sim (UJL σ simE (gc C z) ec l pos i) pos i = .ok ((LJL σ simE ec l pos i).flatMap (leafHints C z real sim))
  | _, [], _, _, _ => rfl
  | ec, a :: l, pos, i, h => by
    rw [UJL, LJL, bagNodes, bag_jeList C z real sim ec l pos (i + 1) h.2, List.flatMap_append]
    rcases h.1 with ⟨h1, h2⟩ | ⟨h1, p, rfl⟩
    · rw [if_pos h1, if_pos h1, bag_je C z real sim _ a _ h2]; rfl
    · rw [if_neg (by simp [h1]), if_neg (by simp [h1]), onLeaf_toSB, onLeaf_toSB, bag_leaf]
      simp
end

end
end
end Verif.Sigma
