import Verif.Proofs.MultiSig
import Verif.Props.SigmaProtocol

set_option linter.unusedSimpArgs false
set_option linter.unusedVariables false

/-! Several signers in turn on an AND proposition. -/

namespace Verif.Sigma
open Verif Verif.Spec

section
variable {G : Type} {q : Nat} [DecidableEq G] [AddCommGroup G] [Module (ZMod q) G]

theorem any_beq_iff (l : List (SigmaBoolean G)) (a : SigmaBoolean G) : l.any (fun i => i.beq a) = true ↔ a ∈ l := by
  rw [List.any_eq_true]
  constructor
  · rintro ⟨x, hx, h⟩
    rw [SigmaBoolean.beq_iff] at h
    rwa [← h]
  · intro h
    exact ⟨a, h, (SigmaBoolean.beq_iff a a).2 rfl⟩

mutual
theorem commitNode_leaves (C : Curve G) (r : Position → ZMod q) (gf : List (SigmaBoolean G)) : ∀ (a : SigmaBoolean G) (pos : Position),
    commitNode C r gf a pos = (leavesAt a pos).flatMap fun x =>
      if gf.any (fun i => i.beq x.1.toSB) then leafCommitments C x.1 (r x.2) x.2 else []
  | .trivial _, _ => by simp [commitNode, leavesAt]
  | .dlog h, pos => by simp [commitNode, leavesAt, LeafProp.toSB]
  | .dht g h u v, pos => by simp [commitNode, leavesAt, LeafProp.toSB]
  | .cand l, pos => by rw [commitNode, leavesAt, commitNodes_leaves C r gf l pos 0]
  | .cor l, pos => by rw [commitNode, leavesAt, commitNodes_leaves C r gf l pos 0]
  | .cth _ l, pos => by rw [commitNode, leavesAt, commitNodes_leaves C r gf l pos 0]
theorem commitNodes_leaves (C : Curve G) (r : Position → ZMod q) (gf : List (SigmaBoolean G)) : ∀ (l : List (SigmaBoolean G))
    (pos : Position) (i : Nat), commitNodes C r gf l pos i = (leavesAtList l pos i).flatMap fun x =>
      if gf.any (fun i => i.beq x.1.toSB) then leafCommitments C x.1 (r x.2) x.2 else []
  | [], _, _ => rfl
  | a :: l, pos, i => by
    rw [commitNodes, leavesAtList, List.flatMap_append, commitNode_leaves C r gf a, commitNodes_leaves C r gf l pos (i + 1)]
end

/-- The hints made for own keys. -/
theorem mem_generate (C : Curve G) (r : Position → ZMod q) (gf : List (SigmaBoolean G)) (sb : SigmaBoolean G) (h : Hint G q) :
    h ∈ generateCommitmentsFor C r sb gf ↔ ∃ x ∈ leaves sb, x.1.toSB ∈ gf ∧
      (h = .realCommitment x.1.toSB (firstMessage C x.1 (r x.2)) x.2 ∨
       h = .ownCommitment x.1.toSB (r x.2) (firstMessage C x.1 (r x.2)) x.2) := by
  unfold generateCommitmentsFor
  rw [commitNode_leaves, List.mem_flatMap]
  constructor
  · rintro ⟨x, hx, hh⟩
    split at hh
    · rename_i hg
      refine ⟨x, hx, (any_beq_iff _ _).1 hg, ?_⟩
      simpa [leafCommitments] using hh
    · cases hh
  · rintro ⟨x, hx, hg, hh⟩
    refine ⟨x, hx, ?_⟩
    rw [if_pos ((any_beq_iff _ _).2 hg)]
    simpa [leafCommitments] using hh

mutual
theorem bag_and (real : List (SigmaBoolean G)) (m : LeafProp G → Position → Msg G) (e : Challenge) (z : Position → ZMod q) :
    ∀ (a : SigmaBoolean G) (pos : Position), AndOnly a → bagNode real [] (UT (fun p pos => some (m p pos)) e z a pos) pos =
      .ok ((leavesAt a pos).flatMap fun x => if real.any (fun i => i.beq x.1.toSB) then
        [.realCommitment x.1.toSB (m x.1 x.2) x.2, .realProof x.1.toSB e (.leaf x.1 (some (m x.1 x.2)) e (z x.2)) x.2] else [])
  | .trivial _, _, h => h.elim
  | .dlog h, pos, _ => by
    simp only [UT, bagNode, leavesAt, List.flatMap_cons, List.flatMap_nil, List.append_nil, List.any_nil, Bool.false_eq_true, if_false]
    split <;> rfl
  | .dht g h u v, pos, _ => by
    simp only [UT, bagNode, leavesAt, List.flatMap_cons, List.flatMap_nil, List.append_nil, List.any_nil, Bool.false_eq_true, if_false]
    split <;> rfl
  | .cor _, _, h => h.elim
  | .cth _ _, _, h => h.elim
  | .cand l, pos, h => by rw [UT, bagNode, leavesAt, bag_andList real m e z l pos 0 h]
theorem bag_andList (real : List (SigmaBoolean G)) (m : LeafProp G → Position → Msg G) (e : Challenge) (z : Position → ZMod q) :
    ∀ (l : List (SigmaBoolean G)) (pos : Position) (i : Nat), AndOnlyList l →
      bagNodes real [] (UTList (fun p pos => some (m p pos)) e z l pos i) pos i =
      .ok ((leavesAtList l pos i).flatMap fun x => if real.any (fun i => i.beq x.1.toSB) then
        [.realCommitment x.1.toSB (m x.1 x.2) x.2, .realProof x.1.toSB e (.leaf x.1 (some (m x.1 x.2)) e (z x.2)) x.2] else [])
  | [], _, _, _ => rfl
  | a :: l, pos, i, h => by
    rw [UTList, bagNodes, bag_and real m e z a _ h.1, Outcome.bind_ok, bag_andList real m e z l pos (i + 1) h.2, leavesAtList,
      List.flatMap_append]
    rfl
end

section
variable (C : Curve G) (sb : SigmaBoolean G) (ss : List (Signer G q))

/-- The commitment of a leaf: that of the first signer with its key. -/
def cmOf (C : Curve G) (ss : List (Signer G q)) (p : LeafProp G) (pos : Position) : Msg G :=
  match ss.find? (fun s => (s.images C).any (fun i => i.beq p.toSB)) with
  | some s => firstMessage C p (s.nonce pos)
  | none => firstMessage C p (0 : ZMod q)

/-- What the extracted hints contain when the keys `done` have signed. -/
structure Extracted (C : Curve G) (sb : SigmaBoolean G) (ss : List (Signer G q)) (e : Challenge) (done : List (SigmaBoolean G)) (ex : List (Hint G q)) : Prop where
  only : ∀ h ∈ ex, ∃ x ∈ leaves sb, x.1.toSB ∈ done ∧ ∃ z, LeafValid C.gen x.1 (cmOf C ss x.1 x.2) e z ∧
    (h = .realCommitment x.1.toSB (cmOf C ss x.1 x.2) x.2 ∨
     h = .realProof x.1.toSB e (.leaf x.1 (some (cmOf C ss x.1 x.2)) e z) x.2)
  all : ∀ x ∈ leaves sb, x.1.toSB ∈ done → ∃ z, .realProof x.1.toSB e (.leaf x.1 (some (cmOf C ss x.1 x.2)) e z) x.2 ∈ ex

theorem mem_hintCommitments (hs : List (Hint G q)) (pos : Position) (m : Msg G) : (pos, m) ∈ hintCommitments hs ↔
    ∃ h ∈ hs, (∃ i r, h = .ownCommitment i r m pos) ∨ (∃ i, h = .realCommitment i m pos) ∨ (∃ i, h = .simulatedCommitment i m pos) := by
  unfold hintCommitments
  rw [List.mem_filterMap]
  constructor
  · rintro ⟨h, hm, he⟩
    refine ⟨h, hm, ?_⟩
    cases h <;> simp at he <;> obtain ⟨rfl, rfl⟩ := he
    · exact .inl ⟨_, _, rfl⟩
    · exact .inr (.inl ⟨_, rfl⟩)
    · exact .inr (.inr ⟨_, rfl⟩)
  · rintro ⟨h, hm, ⟨i, r, rfl⟩ | ⟨i, rfl⟩ | ⟨i, rfl⟩⟩ <;> exact ⟨_, hm, rfl⟩

theorem mem_hintOwn (hs : List (Hint G q)) (pos : Position) (r : ZMod q) : (pos, r) ∈ hintOwn hs ↔
    ∃ i m, .ownCommitment i r m pos ∈ hs := by
  unfold hintOwn
  rw [List.mem_filterMap]
  constructor
  · rintro ⟨h, hm, he⟩
    cases h <;> simp at he
    obtain ⟨rfl, rfl⟩ := he
    exact ⟨_, _, hm⟩
  · rintro ⟨i, m, hm⟩
    exact ⟨_, hm, rfl⟩

theorem mem_hintRealProofs (hs : List (Hint G q)) (pos : Position) (t : Unchecked G q) : (pos, t) ∈ hintRealProofs hs ↔
    ∃ i e, .realProof i e t pos ∈ hs := by
  unfold hintRealProofs
  rw [List.mem_filterMap]
  constructor
  · rintro ⟨h, hm, he⟩
    cases h <;> simp at he
    obtain ⟨rfl, rfl⟩ := he
    exact ⟨_, _, hm⟩
  · rintro ⟨i, m, hm⟩
    exact ⟨_, hm, rfl⟩

theorem findPos_some_of_mem {α : Type} {l : List (Position × α)} {pos : Position} {a : α} (hm : (pos, a) ∈ l) :
    ∃ b, findPos l pos = some b ∧ (pos, b) ∈ l := by
  unfold findPos
  cases hf : l.find? (fun x => decide (x.1 = pos)) with
  | none =>
    have := List.find?_eq_none.1 hf _ hm
    simp at this
  | some x =>
    have h1 := List.mem_of_find?_eq_some hf
    have h2 := List.find?_some hf
    simp only [decide_eq_true_eq] at h2
    obtain ⟨xp, xa⟩ := x
    simp only at h2
    subst h2
    exact ⟨xa, rfl, h1⟩

theorem mem_images (s : Signer G q) (p : LeafProp G) : p.toSB ∈ s.images C ↔ ∃ sec ∈ s.secrets, sec.image C = p := by
  unfold Signer.images
  rw [List.mem_map]
  constructor
  · rintro ⟨sec, h1, h2⟩
    exact ⟨sec, h1, toSB_inj h2⟩
  · rintro ⟨sec, h1, h2⟩
    exact ⟨sec, h1, by rw [h2]⟩

variable (hdis : ∀ s ∈ ss, ∀ t ∈ ss, ∀ x ∈ leaves sb, x.1.toSB ∈ s.images C → x.1.toSB ∈ t.images C → s = t)

include hdis in
theorem cmOf_eq {s : Signer G q} (hs : s ∈ ss) {x : LeafProp G × Position} (hx : x ∈ leaves sb) (hk : x.1.toSB ∈ s.images C) :
    cmOf C ss x.1 x.2 = firstMessage C x.1 (s.nonce x.2) := by
  unfold cmOf
  cases hf : ss.find? (fun s => (s.images C).any (fun i => i.beq x.1.toSB)) with
  | none =>
    have := List.find?_eq_none.1 hf s hs
    exact absurd ((any_beq_iff _ _).2 hk) this
  | some t =>
    have h1 := List.mem_of_find?_eq_some hf
    have h2 := List.find?_some hf
    rw [any_beq_iff] at h2
    rw [hdis s hs t h1 x hx hk h2]

/-- One turn: the signature made, and what can be extracted from it. -/
theorem turn [NeZero q] (hq : q ≤ 2 ^ 256) (hone : C.codec.one = 0) (hb : sb.Bounded) (ha : AndOnly sb)
    (hdis : ∀ s ∈ ss, ∀ t ∈ ss, ∀ x ∈ leaves sb, x.1.toSB ∈ s.images C → x.1.toSB ∈ t.images C → s = t)
    (hcov : ∀ x ∈ leaves sb, ∃ s ∈ ss, x.1.toSB ∈ s.images C) (hok : ∀ s ∈ ss, SecretsOk s.secrets)
    (message bs : Bytes) (e : Challenge) (hbs : fsUnchecked C.codec (UT (fun p pos => some (cmOf C ss p pos)) e (fun _ => (0 : ZMod q)) sb cryptoTreePrefix) = .ok bs)
    (he : e = fsHash C.hash (bs ++ message)) (done : List (SigmaBoolean G)) (ex : List (Hint G q)) (hex : Extracted C sb ss e done ex)
    (s : Signer G q) (hs : s ∈ ss) (hints : List (Hint G q))
    (hh : ∀ h, h ∈ hints ↔ h ∈ s.commitments C sb ∨ h ∈ announced C sb ss ∨ h ∈ ex) :
    ∃ z : Position → ZMod q, ∃ sig, generateProof ⟨C, s.secrets, hints, s.rnd⟩ sb message = .ok sig ∧
      serializeSig (UT (fun _ _ => none) e z sb cryptoTreePrefix) = .ok sig ∧
      (∀ x ∈ leaves sb, (x.1.toSB ∈ done ∨ x.1.toSB ∈ s.images C) → LeafValid C.gen x.1 (cmOf C ss x.1 x.2) e (z x.2)) ∧
      ∃ ex', bagForMultiSig C sb (done ++ s.images C) [] sig = .ok ex' ∧ Extracted C sb ss e (done ++ s.images C) ex' := by
  have huniq : ∀ x ∈ leaves sb, ∀ y ∈ leaves sb, x.2 = y.2 → x = y := fun x hx y hy h => eq_of_pos (leavesAt_unique sb _) hx hy h
  -- announced hints
  have hann : ∀ h, h ∈ announced C sb ss ↔ ∃ t ∈ ss, ∃ x ∈ leaves sb, x.1.toSB ∈ t.images C ∧
      h = .realCommitment x.1.toSB (firstMessage C x.1 (t.nonce x.2)) x.2 := by
    intro h
    unfold announced publicPart
    simp only [List.mem_flatMap, List.mem_filter]
    constructor
    · rintro ⟨t, ht, hm, hf⟩
      obtain ⟨x, hx, hg, rfl | rfl⟩ := (mem_generate C _ _ sb h).1 hm
      · exact ⟨t, ht, x, hx, hg, rfl⟩
      · simp at hf
    · rintro ⟨t, ht, x, hx, hg, rfl⟩
      exact ⟨t, ht, (mem_generate C _ _ sb _).2 ⟨x, hx, hg, .inl rfl⟩, rfl⟩
  -- all commitments at a leaf agree
  have hkey : ∀ m pos, (pos, m) ∈ hintCommitments hints → ∃ y ∈ leaves sb, y.2 = pos ∧ m = cmOf C ss y.1 y.2 := by
    intro m pos hm
    rw [mem_hintCommitments] at hm
    obtain ⟨h, hm, hcase⟩ := hm
    rcases (hh h).1 hm with hm | hm | hm
    · obtain ⟨y, hy, hg, hyh⟩ := (mem_generate C _ _ sb h).1 hm
      refine ⟨y, hy, ?_⟩
      rw [cmOf_eq C sb ss hdis hs hy hg]
      rcases hyh with rfl | rfl
      · rcases hcase with ⟨_, _, h1⟩ | ⟨_, h1⟩ | ⟨_, h1⟩ <;> first | (injection h1; done) | (injection h1 with _ a b; exact ⟨b, a.symm⟩)
      · rcases hcase with ⟨_, _, h1⟩ | ⟨_, h1⟩ | ⟨_, h1⟩ <;> first | (injection h1; done) | (injection h1 with _ _ a b; exact ⟨b, a.symm⟩)
    · obtain ⟨t, ht, y, hy, hg, rfl⟩ := (hann h).1 hm
      refine ⟨y, hy, ?_⟩
      rw [cmOf_eq C sb ss hdis ht hy hg]
      rcases hcase with ⟨_, _, h1⟩ | ⟨_, h1⟩ | ⟨_, h1⟩ <;> first | (injection h1; done) | (injection h1 with _ a b; exact ⟨b, a.symm⟩)
    · obtain ⟨y, hy, hg, z, hv, hyh⟩ := hex.only h hm
      refine ⟨y, hy, ?_⟩
      rcases hyh with rfl | rfl
      · rcases hcase with ⟨_, _, h1⟩ | ⟨_, h1⟩ | ⟨_, h1⟩ <;> first | (injection h1; done) | (injection h1 with _ a b; exact ⟨b, a.symm⟩)
      · rcases hcase with ⟨_, _, h1⟩ | ⟨_, h1⟩ | ⟨_, h1⟩ <;> (injection h1; done)
  have hcm : ∀ x ∈ leaves sb, findPos (hintCommitments hints) x.2 = some (cmOf C ss x.1 x.2) := by
    intro x hx
    refine findPos_of_all ?_ ?_
    · obtain ⟨t, ht, hk⟩ := hcov x hx
      rw [mem_hintCommitments]
      refine ⟨_, (hh _).2 (.inr (.inl ((hann _).2 ⟨t, ht, x, hx, hk, rfl⟩))), .inr (.inl ⟨x.1.toSB, ?_⟩)⟩
      rw [cmOf_eq C sb ss hdis ht hx hk]
    · intro m hm
      obtain ⟨y, hy, h1, h2⟩ := hkey m _ hm
      rw [h2, huniq y hy x hx h1]
  -- own commitments
  have hown : ∀ x ∈ leaves sb, x.1.toSB ∈ s.images C → findPos (hintOwn hints) x.2 = some (s.nonce x.2) := by
    intro x hx hk
    refine findPos_of_all ?_ ?_
    · rw [mem_hintOwn]
      exact ⟨_, _, (hh _).2 (.inl ((mem_generate C _ _ sb _).2 ⟨x, hx, hk, .inr rfl⟩))⟩
    · intro r hr
      rw [mem_hintOwn] at hr
      obtain ⟨i, m, hm⟩ := hr
      rcases (hh _).1 hm with hm | hm | hm
      · obtain ⟨y, hy, hg, hyh⟩ := (mem_generate C _ _ sb _).1 hm
        rcases hyh with h1 | h1
        · injection h1
        · injection h1 with _ a _ b
          rw [a, b]
      · obtain ⟨t, ht, y, hy, hg, h1⟩ := (hann _).1 hm
        injection h1
      · obtain ⟨y, hy, hg, z, hv, h1 | h1⟩ := hex.only _ hm <;> injection h1
  -- proofs of others
  have hrp : ∀ pos t, (pos, t) ∈ hintRealProofs hints → ∃ y ∈ leaves sb, y.2 = pos ∧ y.1.toSB ∈ done ∧
      ∃ z, LeafValid C.gen y.1 (cmOf C ss y.1 y.2) e z ∧ t = .leaf y.1 (some (cmOf C ss y.1 y.2)) e z := by
    intro pos t ht
    rw [mem_hintRealProofs] at ht
    obtain ⟨i, e', hm⟩ := ht
    rcases (hh _).1 hm with hm | hm | hm
    · obtain ⟨y, hy, hg, h1 | h1⟩ := (mem_generate C _ _ sb _).1 hm <;> injection h1
    · obtain ⟨t, ht, y, hy, hg, h1⟩ := (hann _).1 hm
      injection h1
    · obtain ⟨y, hy, hg, z, hv, h1 | h1⟩ := hex.only _ hm
      · injection h1
      · injection h1 with _ _ a b
        exact ⟨y, hy, b.symm, hg, z, hv, a⟩
  -- the response at each leaf
  have hresp : ∀ x ∈ leaves sb, ∃ z, step9Response ⟨C, s.secrets, hints, s.rnd⟩ x.1 none e x.2 = .ok z ∧
      ((x.1.toSB ∈ done ∨ x.1.toSB ∈ s.images C) → LeafValid C.gen x.1 (cmOf C ss x.1 x.2) e z) := by
    intro x hx
    cases hfind : s.secrets.find? (fun t => decide (t.image C = x.1)) with
    | some sec =>
      have h1 : sec.image C = x.1 := by simpa using List.find?_some hfind
      have hsec := List.mem_of_find?_eq_some hfind
      have hk : x.1.toSB ∈ s.images C := (mem_images C s x.1).2 ⟨sec, hsec, h1⟩
      have h2 := hok s hs sec hsec
      have h9 : ∀ w, step9Own (⟨C, s.secrets, hints, s.rnd⟩ : ProverEnv G q) w none e x.2 = .ok (secondMessage w (s.nonce x.2) e) := by
        intro w
        unfold step9Own
        simp only
        rw [hown x hx hk]
      have hw : ∃ w, IsWitness C.gen x.1 w ∧
          step9Response ⟨C, s.secrets, hints, s.rnd⟩ x.1 none e x.2 = .ok (secondMessage w (s.nonce x.2) e) := by
        unfold step9Response
        simp only
        rw [hfind]
        cases sec with
        | dlog w =>
          cases hx1 : x.1 with
          | dlog h =>
            refine ⟨w, ?_, h9 w⟩
            rw [hx1] at h1
            simp only [Secret.image, LeafProp.dlog.injEq, expo_eq C hone] at h1
            exact h1.symm
          | dht g h u v => rw [hx1] at h1; simp [Secret.image] at h1
        | dht w g h u v =>
          cases hx1 : x.1 with
          | dlog h => rw [hx1] at h1; simp [Secret.image] at h1
          | dht g' h' u' v' =>
            refine ⟨w, ?_, h9 w⟩
            rw [hx1] at h1
            simp only [Secret.image, LeafProp.dht.injEq] at h1
            obtain ⟨rfl, rfl, rfl, rfl⟩ := h1
            exact h2
      obtain ⟨w, hw1, hw2⟩ := hw
      refine ⟨_, hw2, fun _ => ?_⟩
      rw [cmOf_eq C sb ss hdis hs hx hk]
      exact real_valid C hone x.1 w _ hw1 e
    | none =>
      have hnk : x.1.toSB ∉ s.images C := by
        intro hk
        obtain ⟨sec, h1, h2⟩ := (mem_images C s x.1).1 hk
        have := List.find?_eq_none.1 hfind sec h1
        simp [h2] at this
      unfold step9Response
      simp only
      rw [hfind]
      by_cases hd : x.1.toSB ∈ done
      · obtain ⟨z0, hz0⟩ := hex.all x hx hd
        obtain ⟨t, ht1, ht2⟩ := findPos_some_of_mem ((mem_hintRealProofs hints x.2 _).2 ⟨_, _, (hh _).2 (.inr (.inr hz0))⟩)
        obtain ⟨y, hy, h1, _, z, hv, rfl⟩ := hrp _ _ ht2
        have := huniq y hy x hx h1
        subst this
        refine ⟨z, ?_, fun _ => hv⟩
        simp only
        rw [ht1]
        cases y.1 <;> rfl
      · have : findPos (hintRealProofs hints) x.2 = none := by
          refine findPos_none fun t ht => ?_
          obtain ⟨y, hy, h1, h2, _⟩ := hrp _ _ ht
          rw [huniq y hy x hx h1] at h2
          exact hd h2
        refine ⟨s.rnd.fallbackZ x.2, ?_, fun h => (h.elim hd hnk).elim⟩
        simp only
        rw [this]
  have hz : ∀ pos, ∃ z : ZMod q, ∀ x ∈ leaves sb, x.2 = pos → step9Response ⟨C, s.secrets, hints, s.rnd⟩ x.1 none e x.2 = .ok z ∧
      ((x.1.toSB ∈ done ∨ x.1.toSB ∈ s.images C) → LeafValid C.gen x.1 (cmOf C ss x.1 x.2) e z) := by
    intro pos
    by_cases hp : ∃ x ∈ leaves sb, x.2 = pos
    · obtain ⟨x, hx, hxp⟩ := hp
      obtain ⟨z, h1⟩ := hresp x hx
      refine ⟨z, fun y hy hyp => ?_⟩
      rw [huniq y hy x hx (hyp.trans hxp.symm)]
      exact h1
    · exact ⟨0, fun x hx h => (hp ⟨x, hx, h⟩).elim⟩
  choose z hz using hz
  have hk : ∀ x ∈ leaves sb, KnownLeaf (⟨C, s.secrets, hints, s.rnd⟩ : ProverEnv G q) x.1 := by
    intro x hx
    obtain ⟨t, ht, hk⟩ := hcov x hx
    unfold KnownLeaf
    rw [Bool.or_eq_true]
    left
    rw [any_beq_iff]
    unfold hintRealImages
    refine List.mem_append_right _ (List.mem_filterMap.2 ?_)
    exact ⟨_, (hh _).2 (.inr (.inl ((hann _).2 ⟨t, ht, x, hx, hk, rfl⟩))), rfl⟩
  have h5 : ∀ x ∈ leaves sb, step5 (⟨C, s.secrets, hints, s.rnd⟩ : ProverEnv G q) x.1 none none false x.2 =
      .ok (some (f6 (cmOf C ss) (fun _ => none) x.1 x.2)) := by
    intro x hx
    unfold step5
    simp only
    rw [hcm x hx]
    obtain ⟨t, ht, hk⟩ := hcov x hx
    have := cmOf_eq C sb ss hdis ht hx hk
    unfold f6
    rw [this]
    cases x.1 <;> rfl
  have hfs : fsUnchecked C.codec (UT (fun p pos => some (cmOf C ss p pos)) e z sb cryptoTreePrefix) = .ok bs := by
    rw [← hbs]
    exact fs_indep _ _ _ _ _ _ _ _ ha
  have hgen := generate_and (⟨C, s.secrets, hints, s.rnd⟩ : ProverEnv G q) (cmOf C ss) (fun _ => none) sb ha hk h5 message bs e z hfs he
    (fun x hx => (hz x.2 x hx rfl).1)
  obtain ⟨sig, hs1, hs2⟩ := C22_roundtrip hq sb hb _ (UT_consistent (fun _ _ => none) e z sb cryptoTreePrefix ha)
  have hval : ∀ x ∈ leaves sb, (x.1.toSB ∈ done ∨ x.1.toSB ∈ s.images C) → LeafValid C.gen x.1 (cmOf C ss x.1 x.2) e (z x.2) :=
    fun x hx => (hz x.2 x hx rfl).2
  refine ⟨z, sig, hgen.trans hs1, hs1, hval, ?_⟩
  have hbag : bagForMultiSig (q := q) C sb (done ++ s.images C) [] sig = bagNode (done ++ s.images C) []
      (UT (fun p pos => some (computeCommitment C p e (z pos))) e z sb cryptoTreePrefix) cryptoTreePrefix := by
    have hp := hs2 []
    rw [List.append_nil, UT_clear] at hp
    have : bagForMultiSig (q := q) C sb (done ++ s.images C) [] sig = (do
        let t ← parseSigComputeChallenges sb sig
        bagNode (done ++ s.images C) [] (computeCommitments C t) cryptoTreePrefix) := by
      cases sb <;> first | exact ha.elim | rfl
    rw [this, hp, Outcome.bind_ok, UT_compute]
  rw [hbag, bag_and _ (fun p pos => computeCommitment C p e (z pos)) e z sb cryptoTreePrefix ha]
  refine ⟨_, rfl, ?_, ?_⟩
  · intro h hm
    rw [List.mem_flatMap] at hm
    obtain ⟨x, hx, hm⟩ := hm
    split at hm
    · rename_i hd
      rw [any_beq_iff] at hd
      have hv := hval x hx (List.mem_append.1 hd)
      have hc := (leafValid_iff C hone _ _ _ _).1 hv
      refine ⟨x, hx, hd, z x.2, hv, ?_⟩
      rw [hc]
      simpa using hm
    · cases hm
  · intro x hx hd
    have hv := hval x hx (List.mem_append.1 hd)
    have hc := (leafValid_iff C hone _ _ _ _).1 hv
    refine ⟨z x.2, List.mem_flatMap.2 ⟨x, hx, ?_⟩⟩
    rw [if_pos ((any_beq_iff _ _).2 hd), hc]
    exact List.mem_cons_of_mem _ (List.mem_singleton.2 rfl)

/-- All turns. -/
theorem session [NeZero q] (hq : q ≤ 2 ^ 256) (hone : C.codec.one = 0) (hb : sb.Bounded) (ha : AndOnly sb)
    (hdis : ∀ s ∈ ss, ∀ t ∈ ss, ∀ x ∈ leaves sb, x.1.toSB ∈ s.images C → x.1.toSB ∈ t.images C → s = t)
    (hcov : ∀ x ∈ leaves sb, ∃ s ∈ ss, x.1.toSB ∈ s.images C) (hok : ∀ s ∈ ss, SecretsOk s.secrets)
    (arrange : List (Hint G q) → List (Hint G q)) (harr : ∀ l h, h ∈ arrange l ↔ h ∈ l)
    (message bs : Bytes) (e : Challenge) (hbs : fsUnchecked C.codec (UT (fun p pos => some (cmOf C ss p pos)) e (fun _ => (0 : ZMod q)) sb cryptoTreePrefix) = .ok bs)
    (he : e = fsHash C.hash (bs ++ message)) : ∀ (rest : List (Signer G q)) (done : List (SigmaBoolean G)) (ex : List (Hint G q)),
    Extracted C sb ss e done ex → rest ≠ [] → (∀ s ∈ rest, s ∈ ss) →
    (∀ x ∈ leaves sb, x.1.toSB ∈ done ∨ ∃ s ∈ rest, x.1.toSB ∈ s.images C) →
    ∃ sig, signInTurn C arrange sb message (announced C sb ss) done ex rest = .ok sig ∧ verifySignature q C sb message sig = .ok true
  | [], _, _, _, h, _, _ => (h rfl).elim
  | [s], done, ex, hex, _, hsub, hc => by
    obtain ⟨z, sig, h1, h2, h3, _⟩ := turn C sb ss hq hone hb ha hdis hcov hok message bs e hbs he done ex hex s (hsub s (by simp))
      (arrange (s.commitments C sb ++ announced C sb ss ++ ex)) (fun h => by rw [harr]; simp only [List.mem_append, or_assoc])
    refine ⟨sig, h1, ?_⟩
    have hv : AllValid C.gen (UT (fun p pos => some (cmOf C ss p pos)) e z sb cryptoTreePrefix) := by
      refine UT_valid C _ e z sb _ ha fun x hx => ⟨_, rfl, h3 x hx ?_⟩
      rcases hc x hx with h | ⟨t, ht, h⟩
      · exact .inl h
      · rw [List.mem_singleton.1 ht] at h
        exact .inr h
    obtain ⟨sig', v1, v2⟩ := verify_complete hq C hone sb hb message _ (UT_consistent _ e z sb cryptoTreePrefix ha) hv bs
      ((fs_indep _ _ _ _ _ _ _ _ ha).trans hbs) (by rw [UT_challenge]; exact he)
    have : sig' = sig := by
      have hc1 := sigWrite_compute C (UT (fun _ _ => none) e z sb cryptoTreePrefix) true
      have hc2 := sigWrite_compute C (UT (fun p pos => some (cmOf C ss p pos)) e z sb cryptoTreePrefix) true
      rw [UT_compute] at hc1 hc2
      have h2' : sigWrite (UT (fun _ _ => none) e z sb cryptoTreePrefix) true = .ok sig := h2
      have v1' : sigWrite (UT (fun p pos => some (cmOf C ss p pos)) e z sb cryptoTreePrefix) true = .ok sig' := v1
      rw [← hc2, hc1, h2'] at v1'
      simpa using v1'.symm
    have := v2 []
    rwa [List.append_nil, ‹sig' = sig›] at this
  | s :: t :: rest, done, ex, hex, _, hsub, hc => by
    obtain ⟨z, sig, h1, h2, h3, ex', h4, h5⟩ := turn C sb ss hq hone hb ha hdis hcov hok message bs e hbs he done ex hex s (hsub s (by simp))
      (arrange (s.commitments C sb ++ announced C sb ss ++ ex)) (fun h => by rw [harr]; simp only [List.mem_append, or_assoc])
    rw [signInTurn, h1, Outcome.bind_ok, h4, Outcome.bind_ok]
    refine session hq hone hb ha hdis hcov hok arrange harr message bs e hbs he (t :: rest) _ ex' h5 (by simp)
      (fun x hx => hsub x (List.mem_cons_of_mem _ hx)) fun x hx => ?_
    rcases hc x hx with h | ⟨u, hu, h⟩
    · exact .inl (List.mem_append_left _ h)
    · rcases List.mem_cons.1 hu with h' | h'
      · rw [h'] at h
        exact .inl (List.mem_append_right _ h)
      · exact .inr ⟨u, h', h⟩

end
end
end Verif.Sigma
