import Verif.Proofs.JointSign
import Verif.Proofs.MultiSigRun

set_option linter.unusedSimpArgs false
set_option linter.unusedVariables false

/-! Several signers in turn, with absent parties. -/

namespace Verif.Sigma
open Verif Verif.Spec

section
variable {G : Type} {q : Nat} [DecidableEq G] [AddCommGroup G] [Module (ZMod q) G]

theorem ownedBy_iff (C : Curve G) (ss : List (Signer G q)) (p : LeafProp G) :
    holds (ownedBy C ss) p.toSB = true ↔ ∃ s ∈ ss, p.toSB ∈ s.images C := by
  have : holds (ownedBy C ss) p.toSB = ss.any fun s => (s.images C).any fun i => i.beq p.toSB := by cases p <;> rfl
  rw [this, List.any_eq_true]
  simp only [any_beq_iff]

theorem ownedBy_false (C : Curve G) (ss : List (Signer G q)) (p : LeafProp G) :
    holds (ownedBy C ss) p.toSB = false ↔ ¬ ∃ s ∈ ss, p.toSB ∈ s.images C := by
  rw [← ownedBy_iff]; simp

/-- Everything fixed during a session. -/
structure Session (G : Type) (q : Nat) [DecidableEq G] [AddCommGroup G] [Module (ZMod q) G] where
  C : Curve G
  sb : SigmaBoolean G
  ss : List (Signer G q)
  absent : List (SigmaBoolean G)
  simE : Position → Challenge
  simZ : Position → ZMod q
  e : Challenge

namespace Session
variable (S : Session G q)

/-- Who holds what. -/
def own : Assignment G := ownedBy S.C S.ss

/-- The commitments of all leaves. -/
def cm (p : LeafProp G) (pos : Position) : Msg G :=
  if holds S.own p.toSB then cmOf S.C S.ss p pos else simulate S.C p (S.simE pos) (S.simZ pos)

/-- The leaves with their challenges. -/
def lj : List (LeafProp G × Position × Challenge) := LJ S.own S.simE S.e S.sb cryptoTreePrefix

/-- What is assumed of it. -/
structure Ok : Prop where
  one : S.C.codec.one = 0
  bounded : S.sb.Bounded
  just : JustEnough S.own S.sb
  owner : ∀ s ∈ S.ss, ∀ t ∈ S.ss, ∀ x ∈ leaves S.sb, x.1.toSB ∈ s.images S.C → x.1.toSB ∈ t.images S.C → s = t
  secrets : ∀ s ∈ S.ss, SecretsOk s.secrets
  absent : ∀ x ∈ leaves S.sb, x.1.toSB ∈ S.absent ↔ ¬ ∃ s ∈ S.ss, x.1.toSB ∈ s.images S.C
  distinct : ∀ x ∈ leaves S.sb, ∀ y ∈ leaves S.sb, x.1.toSB ∈ S.absent → x.1 = y.1 → x = y

/-- What the extracted hints contain when the keys `done` have signed. -/
structure Ext (done : List (SigmaBoolean G)) (ex : List (Hint G q)) : Prop where
  only : ∀ h ∈ ex, ∃ x ∈ S.lj, (x.1.toSB ∈ done ∧ ∃ z, LeafValid S.C.gen x.1 (S.cm x.1 x.2.1) x.2.2 z ∧
      (h = .realCommitment x.1.toSB (S.cm x.1 x.2.1) x.2.1 ∨
       h = .realProof x.1.toSB x.2.2 (.leaf x.1 (some (S.cm x.1 x.2.1)) x.2.2 z) x.2.1)) ∨
    (holds S.own x.1.toSB = false ∧
      (h = .simulatedCommitment x.1.toSB (S.cm x.1 x.2.1) x.2.1 ∨
       h = .simulatedProof x.1.toSB x.2.2 (.leaf x.1 (some (S.cm x.1 x.2.1)) x.2.2 (S.simZ x.2.1)) x.2.1))
  real : ∀ x ∈ S.lj, x.1.toSB ∈ done → ∃ z, .realProof x.1.toSB x.2.2 (.leaf x.1 (some (S.cm x.1 x.2.1)) x.2.2 z) x.2.1 ∈ ex
  sim : ∀ x ∈ S.lj, holds S.own x.1.toSB = false → .simulatedCommitment x.1.toSB (S.cm x.1 x.2.1) x.2.1 ∈ ex ∧
    .simulatedProof x.1.toSB x.2.2 (.leaf x.1 (some (S.cm x.1 x.2.1)) x.2.2 (S.simZ x.2.1)) x.2.1 ∈ ex

/-- The state before a turn of `s`. -/
def Before (done : List (SigmaBoolean G)) (ex : List (Hint G q)) (s : Signer G q) : Prop :=
  (done = [] ∧ ex = [] ∧ S.simE = s.rnd.challenge ∧ S.simZ = s.rnd.simZ) ∨ S.Ext done ex

variable {S}

theorem Before.only {done : List (SigmaBoolean G)} {ex : List (Hint G q)} {s : Signer G q} (hb : S.Before done ex s) :
    ∀ h ∈ ex, ∃ x ∈ S.lj, (x.1.toSB ∈ done ∧ ∃ z, LeafValid S.C.gen x.1 (S.cm x.1 x.2.1) x.2.2 z ∧
      (h = .realCommitment x.1.toSB (S.cm x.1 x.2.1) x.2.1 ∨
       h = .realProof x.1.toSB x.2.2 (.leaf x.1 (some (S.cm x.1 x.2.1)) x.2.2 z) x.2.1)) ∨
    (holds S.own x.1.toSB = false ∧
      (h = .simulatedCommitment x.1.toSB (S.cm x.1 x.2.1) x.2.1 ∨
       h = .simulatedProof x.1.toSB x.2.2 (.leaf x.1 (some (S.cm x.1 x.2.1)) x.2.2 (S.simZ x.2.1)) x.2.1)) := by
  rcases hb with ⟨_, rfl, _⟩ | hb
  · intro h hh; cases hh
  · exact hb.only

theorem Ok.mem_leaves (hok : S.Ok) {x : LeafProp G × Position × Challenge} (hx : x ∈ S.lj) : (x.1, x.2.1) ∈ leaves S.sb := by
  unfold leaves
  rw [← LJ_leaves S.own S.simE S.e S.sb cryptoTreePrefix hok.just]
  exact List.mem_map.2 ⟨x, hx, rfl⟩

theorem Ok.of_leaf (hok : S.Ok) {x : LeafProp G × Position} (hx : x ∈ leaves S.sb) : ∃ c, (x.1, x.2, c) ∈ S.lj := by
  unfold leaves at hx
  rw [← LJ_leaves S.own S.simE S.e S.sb cryptoTreePrefix hok.just] at hx
  obtain ⟨y, hy, rfl⟩ := List.mem_map.1 hx
  exact ⟨y.2.2, hy⟩

/-- A position has one leaf and one challenge. -/
theorem Ok.uniq (hok : S.Ok) {x y : LeafProp G × Position × Challenge} (hx : x ∈ S.lj) (hy : y ∈ S.lj) (h : x.2.1 = y.2.1) : x = y := by
  have hn : (S.lj.map fun x => x.2.1).Nodup := by
    have := leavesAt_unique S.sb cryptoTreePrefix
    rw [← LJ_leaves S.own S.simE S.e S.sb cryptoTreePrefix hok.just, List.map_map] at this
    exact this
  exact List.inj_on_of_nodup_map hn hx hy h

theorem Ok.sim_absent (hok : S.Ok) {x : LeafProp G × Position} (hx : x ∈ leaves S.sb) : holds S.own x.1.toSB = false ↔ x.1.toSB ∈ S.absent := by
  rw [hok.absent x hx]; exact ownedBy_false _ _ _

theorem cm_own (hok : S.Ok) {s : Signer G q} (hs : s ∈ S.ss) {x : LeafProp G × Position} (hx : x ∈ leaves S.sb) (hk : x.1.toSB ∈ s.images S.C) :
    S.cm x.1 x.2 = firstMessage S.C x.1 (s.nonce x.2) := by
  unfold cm
  rw [if_pos (show holds S.own x.1.toSB = true from (ownedBy_iff _ _ _).2 ⟨s, hs, hk⟩)]
  exact cmOf_eq S.C S.sb S.ss hok.owner hs hx hk

theorem cm_sim {p : LeafProp G} (h : holds S.own p.toSB = false) (pos : Position) : S.cm p pos = simulate S.C p (S.simE pos) (S.simZ pos) := by
  unfold cm; rw [h]; rfl

/-- The announced hints. -/
theorem mem_ann (C : Curve G) (sb : SigmaBoolean G) (ss : List (Signer G q)) (h : Hint G q) : h ∈ announced C sb ss ↔
    ∃ t ∈ ss, ∃ x ∈ leaves sb, x.1.toSB ∈ t.images C ∧ h = .realCommitment x.1.toSB (firstMessage C x.1 (t.nonce x.2)) x.2 := by
  unfold announced publicPart
  simp only [List.mem_flatMap, List.mem_filter]
  constructor
  · rintro ⟨t, ht, hm, hf⟩
    obtain ⟨x, hx, hg, rfl | rfl⟩ := (mem_generate C _ _ sb h).1 hm
    · exact ⟨t, ht, x, hx, hg, rfl⟩
    · simp at hf
  · rintro ⟨t, ht, x, hx, hg, rfl⟩
    exact ⟨t, ht, (mem_generate C _ _ sb _).2 ⟨x, hx, hg, .inl rfl⟩, rfl⟩

theorem mem_hintSims (hs : List (Hint G q)) (i : SigmaBoolean G) (t : Unchecked G q) : (i, t) ∈ hintSimulatedProofs hs ↔
    ∃ e pos, .simulatedProof i e t pos ∈ hs := by
  unfold hintSimulatedProofs
  rw [List.mem_filterMap]
  constructor
  · rintro ⟨h, hm, he⟩
    cases h <;> simp at he
    obtain ⟨rfl, rfl⟩ := he
    exact ⟨_, _, hm⟩
  · rintro ⟨i, m, hm⟩
    exact ⟨_, hm, rfl⟩

theorem mem_hintProofs (hs : List (Hint G q)) (pos : Position) (e : Challenge) : (pos, e) ∈ hintProofs hs ↔
    (∃ i t, .realProof i e t pos ∈ hs) ∨ ∃ i t, .simulatedProof i e t pos ∈ hs := by
  unfold hintProofs
  rw [List.mem_filterMap]
  constructor
  · rintro ⟨h, hm, he⟩
    cases h <;> simp at he
    · obtain ⟨rfl, rfl⟩ := he; exact .inl ⟨_, _, hm⟩
    · obtain ⟨rfl, rfl⟩ := he; exact .inr ⟨_, _, hm⟩
  · rintro (⟨i, t, hm⟩ | ⟨i, t, hm⟩)
    · exact ⟨_, hm, rfl⟩
    · exact ⟨_, hm, rfl⟩

variable (S) in
/-- The hints a signer works with. -/
def Hints (s : Signer G q) (ex hints : List (Hint G q)) : Prop :=
  ∀ h, h ∈ hints ↔ h ∈ s.commitments S.C S.sb ∨ h ∈ announced S.C S.sb S.ss ∨ h ∈ ex

section turn
variable (hok : S.Ok) {done : List (SigmaBoolean G)} {ex hints : List (Hint G q)} {s : Signer G q} (hs : s ∈ S.ss)
  (hdone : ∀ x ∈ leaves S.sb, x.1.toSB ∈ done → holds S.own x.1.toSB = true) (hbef : S.Before done ex s) (hh : S.Hints s ex hints)
include hok hs hdone hbef hh

/-- All commitments at a leaf agree. -/
theorem cm_all (m : Msg G) (pos : Position) (hm : (pos, m) ∈ hintCommitments hints) : ∃ y ∈ leaves S.sb, y.2 = pos ∧ m = S.cm y.1 y.2 ∧
    (holds S.own y.1.toSB = false → ex ≠ []) := by
  rw [mem_hintCommitments] at hm
  obtain ⟨h, hm, hcase⟩ := hm
  rcases (hh h).1 hm with hm | hm | hm
  · obtain ⟨y, hy, hg, hyh⟩ := (mem_generate S.C _ _ S.sb h).1 hm
    have hown : holds S.own y.1.toSB = true := (ownedBy_iff _ _ _).2 ⟨s, hs, hg⟩
    refine ⟨y, hy, ?_⟩
    rw [cm_own hok hs hy hg]
    refine and_assoc.1 ⟨?_, fun h => by rw [hown] at h; cases h⟩
    rcases hyh with rfl | rfl
    · rcases hcase with ⟨_, _, h1⟩ | ⟨_, h1⟩ | ⟨_, h1⟩ <;> first | (injection h1; done) | (injection h1 with _ a b; exact ⟨b, a.symm⟩)
    · rcases hcase with ⟨_, _, h1⟩ | ⟨_, h1⟩ | ⟨_, h1⟩ <;> first | (injection h1; done) | (injection h1 with _ _ a b; exact ⟨b, a.symm⟩)
  · obtain ⟨t, ht, y, hy, hg, rfl⟩ := (mem_ann S.C S.sb S.ss h).1 hm
    have hown : holds S.own y.1.toSB = true := (ownedBy_iff _ _ _).2 ⟨t, ht, hg⟩
    refine ⟨y, hy, ?_⟩
    rw [cm_own hok ht hy hg]
    refine and_assoc.1 ⟨?_, fun h => by rw [hown] at h; cases h⟩
    rcases hcase with ⟨_, _, h1⟩ | ⟨_, h1⟩ | ⟨_, h1⟩ <;> first | (injection h1; done) | (injection h1 with _ a b; exact ⟨b, a.symm⟩)
  · have hne : ex ≠ [] := List.ne_nil_of_mem hm
    obtain ⟨y, hy, ⟨hg, z, hv, hyh⟩ | ⟨hg, hyh⟩⟩ := hbef.only h hm
    · refine ⟨_, hok.mem_leaves hy, and_assoc.1 ⟨?_, fun _ => hne⟩⟩
      rcases hyh with rfl | rfl
      · rcases hcase with ⟨_, _, h1⟩ | ⟨_, h1⟩ | ⟨_, h1⟩ <;> first | (injection h1; done) | (injection h1 with _ a b; exact ⟨b, a.symm⟩)
      · rcases hcase with ⟨_, _, h1⟩ | ⟨_, h1⟩ | ⟨_, h1⟩ <;> (injection h1; done)
    · refine ⟨_, hok.mem_leaves hy, and_assoc.1 ⟨?_, fun _ => hne⟩⟩
      rcases hyh with rfl | rfl
      · rcases hcase with ⟨_, _, h1⟩ | ⟨_, h1⟩ | ⟨_, h1⟩ <;> first | (injection h1; done) | (injection h1 with _ a b; exact ⟨b, a.symm⟩)
      · rcases hcase with ⟨_, _, h1⟩ | ⟨_, h1⟩ | ⟨_, h1⟩ <;> (injection h1; done)

theorem cm_find_real (x : LeafProp G × Position) (hx : x ∈ leaves S.sb) (hr : holds S.own x.1.toSB = true) :
    findPos (hintCommitments hints) x.2 = some (S.cm x.1 x.2) := by
  refine findPos_of_all ?_ ?_
  · obtain ⟨t, ht, hk⟩ := (ownedBy_iff _ _ _).1 hr
    rw [mem_hintCommitments]
    refine ⟨_, (hh _).2 (.inr (.inl ((mem_ann _ _ _ _).2 ⟨t, ht, x, hx, hk, rfl⟩))), .inr (.inl ⟨x.1.toSB, ?_⟩)⟩
    rw [cm_own hok ht hx hk]
  · intro m hm
    obtain ⟨y, hy, h1, h2, _⟩ := cm_all hok hs hdone hbef hh m _ hm
    rw [h2, eq_of_pos (leavesAt_unique S.sb _) hy hx h1]

theorem cm_find_sim (hext : S.Ext done ex) (x : LeafProp G × Position) (hx : x ∈ leaves S.sb) (hr : holds S.own x.1.toSB = false) :
    findPos (hintCommitments hints) x.2 = some (S.cm x.1 x.2) := by
  refine findPos_of_all ?_ ?_
  · obtain ⟨c, hc⟩ := hok.of_leaf hx
    rw [mem_hintCommitments]
    exact ⟨_, (hh _).2 (.inr (.inr (hext.sim _ hc hr).1)), .inr (.inr ⟨_, rfl⟩)⟩
  · intro m hm
    obtain ⟨y, hy, h1, h2, _⟩ := cm_all hok hs hdone hbef hh m _ hm
    rw [h2, eq_of_pos (leavesAt_unique S.sb _) hy hx h1]

theorem cm_find_first (hex : ex = []) (x : LeafProp G × Position) (hx : x ∈ leaves S.sb) (hr : holds S.own x.1.toSB = false) :
    findPos (hintCommitments hints) x.2 = none := by
  refine findPos_none fun m hm => ?_
  obtain ⟨y, hy, h1, h2, h3⟩ := cm_all hok hs hdone hbef hh m _ hm
  have := eq_of_pos (leavesAt_unique S.sb _) hy hx h1
  subst this
  exact h3 hr hex

/-- Own commitments. -/
theorem own_find (x : LeafProp G × Position) (hx : x ∈ leaves S.sb) (hk : x.1.toSB ∈ s.images S.C) :
    findPos (hintOwn hints) x.2 = some (s.nonce x.2) := by
  refine findPos_of_all ?_ ?_
  · rw [mem_hintOwn]
    exact ⟨_, _, (hh _).2 (.inl ((mem_generate S.C _ _ S.sb _).2 ⟨x, hx, hk, .inr rfl⟩))⟩
  · intro r hr
    rw [mem_hintOwn] at hr
    obtain ⟨i, m, hm⟩ := hr
    rcases (hh _).1 hm with hm | hm | hm
    · obtain ⟨y, hy, hg, hyh⟩ := (mem_generate S.C _ _ S.sb _).1 hm
      rcases hyh with h1 | h1
      · injection h1
      · injection h1 with _ a _ b
        rw [a, b]
    · obtain ⟨t, ht, y, hy, hg, h1⟩ := (mem_ann _ _ _ _).1 hm
      injection h1
    · obtain ⟨y, hy, ⟨hg, z, hv, h1 | h1⟩ | ⟨hg, h1 | h1⟩⟩ := hbef.only _ hm <;> injection h1

/-- Proofs of others. -/
theorem proof_real {i : SigmaBoolean G} {c : Challenge} {t : Unchecked G q} {pos : Position} (hm : .realProof i c t pos ∈ hints) :
    ∃ y ∈ S.lj, y.2.1 = pos ∧ y.1.toSB = i ∧ y.2.2 = c ∧ y.1.toSB ∈ done ∧ ∃ z, LeafValid S.C.gen y.1 (S.cm y.1 y.2.1) y.2.2 z ∧
      t = .leaf y.1 (some (S.cm y.1 y.2.1)) y.2.2 z := by
  rcases (hh _).1 hm with hm | hm | hm
  · obtain ⟨y, hy, hg, h1 | h1⟩ := (mem_generate S.C _ _ S.sb _).1 hm <;> injection h1
  · obtain ⟨t, ht, y, hy, hg, h1⟩ := (mem_ann _ _ _ _).1 hm
    injection h1
  · obtain ⟨y, hy, ⟨hg, z, hv, h1 | h1⟩ | ⟨hg, h1 | h1⟩⟩ := hbef.only _ hm
    · injection h1
    · injection h1 with a b c d
      exact ⟨y, hy, d.symm, a.symm, b.symm, hg, z, hv, c⟩
    · injection h1
    · injection h1

theorem proof_sim {i : SigmaBoolean G} {c : Challenge} {t : Unchecked G q} {pos : Position} (hm : .simulatedProof i c t pos ∈ hints) :
    ∃ y ∈ S.lj, y.2.1 = pos ∧ y.1.toSB = i ∧ y.2.2 = c ∧ holds S.own y.1.toSB = false ∧
      t = .leaf y.1 (some (S.cm y.1 y.2.1)) y.2.2 (S.simZ y.2.1) := by
  rcases (hh _).1 hm with hm | hm | hm
  · obtain ⟨y, hy, hg, h1 | h1⟩ := (mem_generate S.C _ _ S.sb _).1 hm <;> injection h1
  · obtain ⟨t, ht, y, hy, hg, h1⟩ := (mem_ann _ _ _ _).1 hm
    injection h1
  · obtain ⟨y, hy, ⟨hg, z, hv, h1 | h1⟩ | ⟨hg, h1 | h1⟩⟩ := hbef.only _ hm
    · injection h1
    · injection h1
    · injection h1
    · injection h1 with a b c d
      exact ⟨y, hy, d.symm, a.symm, b.symm, hg, c⟩

/-- The challenge a simulated leaf is given. -/
theorem sim_chal (x : LeafProp G × Position) (hx : x ∈ leaves S.sb) (hr : holds S.own x.1.toSB = false) :
    (findPos (hintProofs hints) x.2).getD (s.rnd.challenge x.2) = S.simE x.2 := by
  obtain ⟨c, hc⟩ := hok.of_leaf hx
  have hcs : c = S.simE x.2 := LJ_sim S.own S.simE S.e S.sb cryptoTreePrefix hok.just _ hc hr
  have hall : ∀ b, (x.2, b) ∈ hintProofs hints → b = S.simE x.2 := by
    intro b hb
    rw [mem_hintProofs] at hb
    rcases hb with ⟨i, t, hm⟩ | ⟨i, t, hm⟩
    · obtain ⟨y, hy, h1, h2, h3, h4, _⟩ := proof_real hok hs hdone hbef hh hm
      have := hok.uniq hy hc h1
      rw [← h3, this, hcs]
    · obtain ⟨y, hy, h1, h2, h3, h4, _⟩ := proof_sim hok hs hdone hbef hh hm
      have := hok.uniq hy hc h1
      rw [← h3, this, hcs]
  rcases hbef with ⟨hd, he, hE, hZ⟩ | hext
  · have : findPos (hintProofs hints) x.2 = none := by
      refine findPos_none fun b hb => ?_
      rw [mem_hintProofs] at hb
      rcases hb with ⟨i, t, hm⟩ | ⟨i, t, hm⟩
      · obtain ⟨y, hy, h1, h2, h3, h4, _⟩ := proof_real hok hs hdone (.inl ⟨hd, he, hE, hZ⟩) hh hm
        rw [hd] at h4; cases h4
      · rcases (hh _).1 hm with hm | hm | hm
        · obtain ⟨y, hy, hg, h1 | h1⟩ := (mem_generate S.C _ _ S.sb _).1 hm <;> injection h1
        · obtain ⟨t, ht, y, hy, hg, h1⟩ := (mem_ann _ _ _ _).1 hm
          injection h1
        · rw [he] at hm; cases hm
    rw [this, hE]; rfl
  · have : findPos (hintProofs hints) x.2 = some (S.simE x.2) := by
      refine findPos_of_all ?_ hall
      rw [mem_hintProofs]
      right
      have := (hext.sim _ hc hr).2
      simp only [hcs] at this
      exact ⟨_, _, (hh _).2 (.inr (.inr this))⟩
    rw [this]; rfl

theorem known_je (x : LeafProp G × Position) (hx : x ∈ leaves S.sb) :
    knownLeaf (⟨S.C, s.secrets, hints, s.rnd⟩ : ProverEnv G q) x.1 = holds S.own x.1.toSB := by
  rw [Bool.eq_iff_iff]
  unfold knownLeaf
  rw [Bool.or_eq_true, any_beq_iff]
  constructor
  · rintro (h | h)
    · simp only at h
      unfold hintRealImages at h
      rcases List.mem_append.1 h with h | h
      · obtain ⟨i, hm, hi⟩ := List.mem_filterMap.1 h
        cases i <;> simp at hi
        subst hi
        obtain ⟨y, hy, h1, h2, h3, h4, _⟩ := proof_real hok hs hdone hbef hh hm
        rw [← h2]
        exact hdone _ (hok.mem_leaves hy) h4
      · obtain ⟨i, hm, hi⟩ := List.mem_filterMap.1 h
        cases i <;> simp at hi
        subst hi
        rcases (hh _).1 hm with hm | hm | hm
        · obtain ⟨y, hy, hg, h1 | h1⟩ := (mem_generate S.C _ _ S.sb _).1 hm
          · injection h1 with a b c
            exact (ownedBy_iff _ _ _).2 ⟨s, hs, by rw [a]; exact hg⟩
          · injection h1
        · obtain ⟨t, ht, y, hy, hg, h1⟩ := (mem_ann _ _ _ _).1 hm
          injection h1 with a b c
          exact (ownedBy_iff _ _ _).2 ⟨t, ht, by rw [a]; exact hg⟩
        · obtain ⟨y, hy, ⟨hg, z, hv, h1 | h1⟩ | ⟨hg, h1 | h1⟩⟩ := hbef.only _ hm
          · injection h1 with a b c
            rw [a]
            exact hdone _ (hok.mem_leaves hy) hg
          · injection h1
          · injection h1
          · injection h1
    · rw [List.any_eq_true] at h
      obtain ⟨sec, h1, h2⟩ := h
      exact (ownedBy_iff _ _ _).2 ⟨s, hs, (mem_images S.C s x.1).2 ⟨sec, h1, by simpa using h2⟩⟩
  · intro h
    left
    obtain ⟨t, ht, hk⟩ := (ownedBy_iff _ _ _).1 h
    unfold hintRealImages
    refine List.mem_append_right _ (List.mem_filterMap.2 ?_)
    exact ⟨_, (hh _).2 (.inr (.inl ((mem_ann _ _ _ _).2 ⟨t, ht, x, hx, hk, rfl⟩))), rfl⟩

/-- The response at each real leaf. -/
theorem resp_je (x : LeafProp G × Position × Challenge) (hx : x ∈ S.lj) :
    ∃ z, step9Response ⟨S.C, s.secrets, hints, s.rnd⟩ x.1 none x.2.2 x.2.1 = .ok z ∧
      ((x.1.toSB ∈ done ∨ x.1.toSB ∈ s.images S.C) → LeafValid S.C.gen x.1 (S.cm x.1 x.2.1) x.2.2 z) := by
  have hxl := hok.mem_leaves hx
  cases hfind : s.secrets.find? (fun t => decide (t.image S.C = x.1)) with
  | some sec =>
    have h1 : sec.image S.C = x.1 := by simpa using List.find?_some hfind
    have hsec := List.mem_of_find?_eq_some hfind
    have hk : x.1.toSB ∈ s.images S.C := (mem_images S.C s x.1).2 ⟨sec, hsec, h1⟩
    have h2 := hok.secrets s hs sec hsec
    have h9 : ∀ w, step9Own (⟨S.C, s.secrets, hints, s.rnd⟩ : ProverEnv G q) w none x.2.2 x.2.1 = .ok (secondMessage w (s.nonce x.2.1) x.2.2) := by
      intro w
      unfold step9Own
      simp only
      rw [own_find hok hs hdone hbef hh _ hxl hk]
    have hw : ∃ w, IsWitness S.C.gen x.1 w ∧
        step9Response ⟨S.C, s.secrets, hints, s.rnd⟩ x.1 none x.2.2 x.2.1 = .ok (secondMessage w (s.nonce x.2.1) x.2.2) := by
      unfold step9Response
      simp only
      rw [hfind]
      cases sec with
      | dlog w =>
        cases hx1 : x.1 with
        | dlog h =>
          refine ⟨w, ?_, h9 w⟩
          rw [hx1] at h1
          simp only [Secret.image, LeafProp.dlog.injEq, expo_eq S.C hok.one] at h1
          exact h1.symm
        | dht g h u v => rw [hx1] at h1; simp [Secret.image] at h1
      | dht w g h u v =>
        cases hx1 : x.1 with
        | dlog h => rw [hx1] at h1; simp [Secret.image] at h1
        | dht g' h' u' v' =>
          refine ⟨w, ?_, h9 w⟩
          rw [hx1] at h1
          simp only [Secret.image, LeafProp.dht.injEq] at h1
          obtain ⟨rfl, rfl, rfl, rfl⟩ := h1
          exact h2
    obtain ⟨w, hw1, hw2⟩ := hw
    refine ⟨_, hw2, fun _ => ?_⟩
    rw [cm_own (x := (x.1, x.2.1)) hok hs hxl hk]
    exact real_valid S.C hok.one x.1 w _ hw1 _
  | none =>
    have hnk : x.1.toSB ∉ s.images S.C := by
      intro hk
      obtain ⟨sec, h1, h2⟩ := (mem_images S.C s x.1).1 hk
      have := List.find?_eq_none.1 hfind sec h1
      simp [h2] at this
    unfold step9Response
    simp only
    rw [hfind]
    by_cases hd : x.1.toSB ∈ done
    · have hext : S.Ext done ex := by
        rcases hbef with ⟨h, _⟩ | h
        · rw [h] at hd; cases hd
        · exact h
      obtain ⟨z0, hz0⟩ := hext.real x hx hd
      obtain ⟨t, ht1, ht2⟩ := findPos_some_of_mem ((mem_hintRealProofs hints x.2.1 _).2 ⟨_, _, (hh _).2 (.inr (.inr hz0))⟩)
      obtain ⟨i, c, hm⟩ := (mem_hintRealProofs hints _ _).1 ht2
      obtain ⟨y, hy, h1, _, _, _, z, hv, rfl⟩ := proof_real hok hs hdone hbef hh hm
      have := hok.uniq hy hx h1
      subst this
      refine ⟨z, ?_, fun _ => hv⟩
      simp only
      rw [ht1]
      cases y.1 <;> rfl
    · have : findPos (hintRealProofs hints) x.2.1 = none := by
        refine findPos_none fun t ht => ?_
        obtain ⟨i, c, hm⟩ := (mem_hintRealProofs hints _ _).1 ht
        obtain ⟨y, hy, h1, _, _, h4, _⟩ := proof_real hok hs hdone hbef hh hm
        rw [hok.uniq hy hx h1] at h4
        exact hd h4
      refine ⟨s.rnd.fallbackZ x.2.1, ?_, fun h => (h.elim hd hnk).elim⟩
      simp only
      rw [this]

/-- One turn: the signature made, and what can be extracted from it. -/
theorem turn_je [NeZero q] (hq : q ≤ 2 ^ 256) (message bs : Bytes)
    (hbs : fsUnchecked S.C.codec (UJ S.own S.simE (gm S.cm (fun _ => (0 : ZMod q))) S.e S.sb cryptoTreePrefix) = .ok bs)
    (he : S.e = fsHash S.C.hash (bs ++ message)) :
    ∃ z : Position → ZMod q, ∃ sig, generateProof ⟨S.C, s.secrets, hints, s.rnd⟩ S.sb message = .ok sig ∧
      serializeSig (UJ S.own S.simE (g9 S.own S.cm z) S.e S.sb cryptoTreePrefix) = .ok sig ∧
      (∀ x ∈ S.lj, (x.1.toSB ∈ done ∨ x.1.toSB ∈ s.images S.C ∨ holds S.own x.1.toSB = false) →
        LeafValid S.C.gen x.1 (S.cm x.1 x.2.1) x.2.2 (z x.2.1)) ∧
      ∃ ex', bagForMultiSig S.C S.sb (done ++ s.images S.C) S.absent sig = .ok ex' ∧ S.Ext (done ++ s.images S.C) ex' := by
  have hz : ∀ pos, ∃ z : ZMod q, ∀ x ∈ S.lj, x.2.1 = pos →
      (holds S.own x.1.toSB = true → step9Response ⟨S.C, s.secrets, hints, s.rnd⟩ x.1 none x.2.2 x.2.1 = .ok z) ∧
      (holds S.own x.1.toSB = false → z = S.simZ x.2.1) ∧
      ((x.1.toSB ∈ done ∨ x.1.toSB ∈ s.images S.C) → LeafValid S.C.gen x.1 (S.cm x.1 x.2.1) x.2.2 z) := by
    intro pos
    by_cases hp : ∃ x ∈ S.lj, x.2.1 = pos
    · obtain ⟨x, hx, hxp⟩ := hp
      obtain ⟨z, h1, h2⟩ := resp_je hok hs hdone hbef hh x hx
      cases hr : holds S.own x.1.toSB with
      | true =>
        refine ⟨z, fun y hy hyp => ?_⟩
        rw [hok.uniq hy hx (hyp.trans hxp.symm)]
        exact ⟨fun _ => h1, fun h => by (rw [hr] at h; cases h), h2⟩
      | false =>
        refine ⟨S.simZ x.2.1, fun y hy hyp => ?_⟩
        rw [hok.uniq hy hx (hyp.trans hxp.symm)]
        refine ⟨fun h => by (rw [hr] at h; cases h), fun _ => rfl, fun h => ?_⟩
        rcases h with h | h
        · have := hdone _ (hok.mem_leaves hx) h
          rw [hr] at this; cases this
        · have := (ownedBy_iff S.C S.ss x.1).2 ⟨s, hs, h⟩
          exact absurd (show holds S.own x.1.toSB = true from this) (by simp [hr])
    · exact ⟨0, fun x hx h => (hp ⟨x, hx, h⟩).elim⟩
  choose z hz using hz
  have hval : ∀ x ∈ S.lj, (x.1.toSB ∈ done ∨ x.1.toSB ∈ s.images S.C ∨ holds S.own x.1.toSB = false) →
      LeafValid S.C.gen x.1 (S.cm x.1 x.2.1) x.2.2 (z x.2.1) := by
    intro x hx h
    rcases h with h | h | h
    · exact (hz _ x hx rfl).2.2 (.inl h)
    · exact (hz _ x hx rfl).2.2 (.inr h)
    · rw [(hz _ x hx rfl).2.1 h, cm_sim h, LJ_sim S.own S.simE S.e S.sb cryptoTreePrefix hok.just x hx h]
      exact simulate_valid S.C hok.one _ _ _
  have hgen : generateProof ⟨S.C, s.secrets, hints, s.rnd⟩ S.sb message =
      serializeSig (UJ S.own S.simE (g9 S.own S.cm z) S.e S.sb cryptoTreePrefix) := by
    have hbs' : fsUnchecked S.C.codec (UJ S.own S.simE (gm S.cm z) S.e S.sb cryptoTreePrefix) = .ok bs :=
      (fsj_indep _ _ _ _ _ _ _ hok.just).trans hbs
    have h5 : ∀ x ∈ leaves S.sb, holds S.own x.1.toSB = true →
        step5 (⟨S.C, s.secrets, hints, s.rnd⟩ : ProverEnv G q) x.1 none none false x.2 = .ok (some (lf6 S.cm x.1 x.2)) := by
      intro x hx hr
      unfold step5
      simp only
      rw [cm_find_real hok hs hdone hbef hh x hx hr]
      obtain ⟨t, ht, hk⟩ := (ownedBy_iff _ _ _).1 hr
      have := cm_own hok ht hx hk
      unfold lf6
      rw [this]
      cases x.1 <;> rfl
    have hreal : ∀ x ∈ S.lj, holds S.own x.1.toSB = true →
        step9Response (⟨S.C, s.secrets, hints, s.rnd⟩ : ProverEnv G q) x.1 none x.2.2 x.2.1 = .ok (z x.2.1) := fun x hx => (hz _ x hx rfl).1
    have hsimE : ∀ x ∈ S.lj, holds S.own x.1.toSB = false → x.2.2 = S.simE x.2.1 :=
      fun x hx hr => LJ_sim S.own S.simE S.e S.sb cryptoTreePrefix hok.just x hx hr
    rcases Classical.em (S.Ext done ex) with hext | hnext
    · -- later turns
      refine generate_je (fs6 := fun p pos => .leaf p (some (S.cm p pos)) none (some (S.simE pos)) true pos)
        (⟨S.C, s.secrets, hints, s.rnd⟩ : ProverEnv G q) S.sb hok.bounded hok.just
        (known_je hok hs hdone hbef hh) ⟨h5, sim_chal hok hs hdone hbef hh, ?_, fun x _ _ => ⟨0, .inr rfl⟩⟩ message bs S.e z hbs' he ⟨hreal, ?_⟩
      · intro x hx hr
        unfold step5
        simp only
        rw [cm_find_sim hok hs hdone hbef hh hext x hx hr, cm_sim hr]
        cases x.1 <;> rfl
      · intro x hx hr n
        refine td_leaf _ _ _ n ?_ (by simp)
        rw [provingStep]
        simp only [Bool.not_true, Bool.false_eq_true, if_false]
        cases hf : (hintSimulatedProofs hints).find? (fun y => y.1.beq x.1.toSB) with
        | none =>
          have h1 := (hext.sim x hx hr).2
          have h2 := List.find?_eq_none.1 hf _ ((mem_hintSims hints _ _).2 ⟨_, _, (hh _).2 (.inr (.inr h1))⟩)
          exact absurd ((SigmaBoolean.beq_iff _ _).2 rfl) h2
        | some y =>
          obtain ⟨yi, yt⟩ := y
          have h1 := List.mem_of_find?_eq_some hf
          have h2 := List.find?_some hf
          simp only [SigmaBoolean.beq_iff] at h2
          obtain ⟨c, pos, hm⟩ := (mem_hintSims hints _ _).1 h1
          obtain ⟨w, hw, w1, w2, w3, w4, w5⟩ := proof_sim hok hs hdone hbef hh hm
          have hxl := hok.mem_leaves hx
          have hwl := hok.mem_leaves hw
          have heq := hok.distinct _ hwl _ hxl ((hok.sim_absent hwl).1 w4) (toSB_inj (w2.trans h2))
          have : w = x := hok.uniq hw hx (congrArg Prod.snd heq)
          subst this
          simp only [w5, g9, hr, Bool.false_eq_true, if_false]
          rw [(hz _ w hx rfl).2.1 hr]
    · -- the first turn
      have hfirst : done = [] ∧ ex = [] ∧ S.simE = s.rnd.challenge ∧ S.simZ = s.rnd.simZ := by
        rcases hbef with h | h
        · exact h
        · exact absurd h hnext
      obtain ⟨hd, hex, hE, hZ⟩ := hfirst
      refine generate_je (fs6 := fun p pos => .unchecked (.leaf p (some (S.cm p pos)) (S.simE pos) (S.simZ pos)))
        (⟨S.C, s.secrets, hints, s.rnd⟩ : ProverEnv G q) S.sb hok.bounded hok.just
        (known_je hok hs hdone hbef hh) ⟨h5, sim_chal hok hs hdone hbef hh, ?_, fun x _ _ => ⟨_, .inl rfl⟩⟩ message bs S.e z hbs' he ⟨hreal, ?_⟩
      · intro x hx hr
        unfold step5
        simp only
        rw [cm_find_first hok hs hdone hbef hh hex x hx hr, cm_sim hr, hE, hZ]
        rfl
      · intro x hx hr n
        rw [rewriteTd, provingStep]
        simp only [Outcome.bind_ok, Option.getD_none, g9, hr, Bool.false_eq_true, if_false]
        rw [(hz _ x hx rfl).2.1 hr, hsimE x hx hr]
        rfl
  have hg9 : ∀ p pos e, ∃ m, g9 (q := q) S.own S.cm z p pos e = .leaf p m e (z pos) := fun _ _ _ => ⟨_, rfl⟩
  have hcons : Consistent S.sb (UJ S.own S.simE (g9 S.own S.cm z) S.e S.sb cryptoTreePrefix) := by
    refine UJ_consistent S.own S.simE _ (fun _ _ _ => rfl) (fun p pos e => ?_) S.sb hok.bounded hok.just _ _
    cases p <;> rfl
  obtain ⟨sig, hs1, hs2⟩ := C22_roundtrip hq S.sb hok.bounded _ hcons
  refine ⟨z, sig, hgen.trans hs1, hs1, hval, ?_⟩
  have hbag : bagForMultiSig (q := q) S.C S.sb (done ++ s.images S.C) S.absent sig = bagNode (done ++ s.images S.C) S.absent
      (UJ S.own S.simE (gc S.C z) S.e S.sb cryptoTreePrefix) cryptoTreePrefix := by
    have hp := hs2 []
    rw [List.append_nil] at hp
    have : bagForMultiSig (q := q) S.C S.sb (done ++ s.images S.C) S.absent sig = (do
        let t ← parseSigComputeChallenges S.sb sig
        bagNode (done ++ s.images S.C) S.absent (computeCommitments S.C t) cryptoTreePrefix) := by
      have hj := hok.just
      cases hsb : S.sb <;> first | (rw [hsb] at hj; exact hj.elim) | rfl
    rw [this, hp, Outcome.bind_ok, UJ_clear_compute S.C z hg9]
  rw [hbag, bag_je S.C z _ _ S.e S.sb cryptoTreePrefix hok.just]
  have hcmv : ∀ x ∈ S.lj, (x.1.toSB ∈ done ∨ x.1.toSB ∈ s.images S.C ∨ holds S.own x.1.toSB = false) →
      computeCommitment S.C x.1 x.2.2 (z x.2.1) = S.cm x.1 x.2.1 :=
    fun x hx h => ((leafValid_iff S.C hok.one _ _ _ _).1 (hval x hx h)).symm
  have hnotdone : ∀ x ∈ S.lj, holds S.own x.1.toSB = false → x.1.toSB ∉ done ++ s.images S.C := by
    intro x hx hr hm
    rcases List.mem_append.1 hm with h | h
    · have := hdone _ (hok.mem_leaves hx) h
      simp only [hr] at this; cases this
    · have := (ownedBy_iff S.C S.ss x.1).2 ⟨s, hs, h⟩
      exact absurd (show holds S.own x.1.toSB = true from this) (by simp [hr])
  refine ⟨_, rfl, ?_, ?_, ?_⟩
  · intro h hm
    obtain ⟨x, hx, hm⟩ := List.mem_flatMap.1 hm
    refine ⟨x, hx, ?_⟩
    unfold leafHints at hm
    by_cases hd : x.1.toSB ∈ done ++ s.images S.C
    · rw [if_pos ((any_beq_iff _ _).2 hd)] at hm
      have hor : x.1.toSB ∈ done ∨ x.1.toSB ∈ s.images S.C ∨ holds S.own x.1.toSB = false := by
        rcases List.mem_append.1 hd with h | h
        · exact .inl h
        · exact .inr (.inl h)
      refine .inl ⟨hd, z x.2.1, hval x hx hor, ?_⟩
      unfold gc at hm
      rw [hcmv x hx hor] at hm
      simpa using hm
    · rw [if_neg (by rw [any_beq_iff]; exact hd)] at hm
      by_cases ha : x.1.toSB ∈ S.absent
      · rw [if_pos ((any_beq_iff _ _).2 ha)] at hm
        have hr := (hok.sim_absent (hok.mem_leaves hx)).2 ha
        refine .inr ⟨hr, ?_⟩
        unfold gc at hm
        rw [hcmv x hx (.inr (.inr hr)), (hz _ x hx rfl).2.1 hr] at hm
        simpa using hm
      · rw [if_neg (by rw [any_beq_iff]; exact ha)] at hm
        cases hm
  · intro x hx hd
    have hor : x.1.toSB ∈ done ∨ x.1.toSB ∈ s.images S.C ∨ holds S.own x.1.toSB = false := by
      rcases List.mem_append.1 hd with h | h
      · exact .inl h
      · exact .inr (.inl h)
    refine ⟨z x.2.1, List.mem_flatMap.2 ⟨x, hx, ?_⟩⟩
    unfold leafHints gc
    rw [if_pos ((any_beq_iff _ _).2 hd), hcmv x hx hor]
    exact List.mem_cons_of_mem _ (List.mem_singleton.2 rfl)
  · intro x hx hr
    have ha := (hok.sim_absent (hok.mem_leaves hx)).1 hr
    have key : leafHints S.C z (done ++ s.images S.C) S.absent x =
        [.simulatedCommitment x.1.toSB (S.cm x.1 x.2.1) x.2.1,
         .simulatedProof x.1.toSB x.2.2 (.leaf x.1 (some (S.cm x.1 x.2.1)) x.2.2 (S.simZ x.2.1)) x.2.1] := by
      unfold leafHints gc
      rw [if_neg (by rw [any_beq_iff]; exact hnotdone x hx hr), if_pos ((any_beq_iff _ _).2 ha), hcmv x hx (.inr (.inr hr)),
        (hz _ x hx rfl).2.1 hr]
    exact ⟨List.mem_flatMap.2 ⟨x, hx, by rw [key]; simp⟩, List.mem_flatMap.2 ⟨x, hx, by rw [key]; simp⟩⟩

end turn

/-- All turns. -/
theorem session_je [NeZero q] (hok : S.Ok) (hq : q ≤ 2 ^ 256) (arrange : List (Hint G q) → List (Hint G q)) (harr : ∀ l h, h ∈ arrange l ↔ h ∈ l)
    (message bs : Bytes) (hbs : fsUnchecked S.C.codec (UJ S.own S.simE (gm S.cm (fun _ => (0 : ZMod q))) S.e S.sb cryptoTreePrefix) = .ok bs)
    (he : S.e = fsHash S.C.hash (bs ++ message)) : ∀ (rest : List (Signer G q)) (done : List (SigmaBoolean G)) (ex : List (Hint G q)),
    (∀ s r, rest = s :: r → S.Before done ex s) → (∀ x ∈ leaves S.sb, x.1.toSB ∈ done → holds S.own x.1.toSB = true) →
    rest ≠ [] → (∀ s ∈ rest, s ∈ S.ss) →
    (∀ x ∈ leaves S.sb, holds S.own x.1.toSB = true → x.1.toSB ∈ done ∨ ∃ s ∈ rest, x.1.toSB ∈ s.images S.C) →
    ∃ sig, signPresent S.C arrange S.sb S.absent message (announced S.C S.sb S.ss) done ex rest = .ok sig ∧
      verifySignature q S.C S.sb message sig = .ok true
  | [], _, _, _, _, h, _, _ => (h rfl).elim
  | [s], done, ex, hex, hdone, _, hsub, hc => by
    obtain ⟨z, sig, h1, h2, h3, _⟩ := turn_je hok (hsub s (by simp)) hdone (hex s [] rfl) (hints := arrange (s.commitments S.C S.sb ++
      announced S.C S.sb S.ss ++ ex)) (fun h => by rw [harr]; simp only [List.mem_append, or_assoc]) hq message bs hbs he
    refine ⟨sig, h1, ?_⟩
    have hv : AllValid S.C.gen (UJ S.own S.simE (gm S.cm z) S.e S.sb cryptoTreePrefix) := by
      refine UJ_valid S.C _ S.e S.sb _ hok.just fun x hx => ⟨_, rfl, h3 x hx ?_⟩
      cases hr : holds S.own x.1.toSB with
      | false => exact .inr (.inr rfl)
      | true =>
        rcases hc _ (hok.mem_leaves hx) hr with h | ⟨t, ht, h⟩
        · exact .inl h
        · rw [List.mem_singleton.1 ht] at h
          exact .inr (.inl h)
    have hcons : Consistent S.sb (UJ S.own S.simE (gm S.cm z) S.e S.sb cryptoTreePrefix) := by
      refine UJ_consistent S.own S.simE _ (fun _ _ _ => rfl) (fun p pos e => ?_) S.sb hok.bounded hok.just _ _
      cases p <;> rfl
    obtain ⟨sig', v1, v2⟩ := verify_complete hq S.C hok.one S.sb hok.bounded message _ hcons hv bs
      ((fsj_indep _ _ _ _ _ _ _ hok.just).trans hbs) (by rw [UJ_challenge S.own S.simE _ (fun _ _ _ => rfl) _ _ _ hok.just]; exact he)
    have : sig' = sig := by
      have hc1 := sigWrite_compute S.C (UJ S.own S.simE (g9 S.own S.cm z) S.e S.sb cryptoTreePrefix) true
      have hc2 := sigWrite_compute S.C (UJ S.own S.simE (gm S.cm z) S.e S.sb cryptoTreePrefix) true
      rw [UJ_compute (g := g9 S.own S.cm z) S.C z (fun _ _ _ => ⟨_, rfl⟩)] at hc1
      rw [UJ_compute (g := gm S.cm z) S.C z (fun _ _ _ => ⟨_, rfl⟩)] at hc2
      have h2' : sigWrite (UJ S.own S.simE (g9 S.own S.cm z) S.e S.sb cryptoTreePrefix) true = .ok sig := h2
      have v1' : sigWrite (UJ S.own S.simE (gm S.cm z) S.e S.sb cryptoTreePrefix) true = .ok sig' := v1
      rw [← hc2, hc1, h2'] at v1'
      simpa using v1'.symm
    have := v2 []
    rwa [List.append_nil, ‹sig' = sig›] at this
  | s :: t :: rest, done, ex, hex, hdone, _, hsub, hc => by
    obtain ⟨z, sig, h1, h2, h3, ex', h4, h5⟩ := turn_je hok (hsub s (by simp)) hdone (hex s _ rfl) (hints := arrange (s.commitments S.C S.sb ++
      announced S.C S.sb S.ss ++ ex)) (fun h => by rw [harr]; simp only [List.mem_append, or_assoc]) hq message bs hbs he
    rw [signPresent, h1, Outcome.bind_ok, h4, Outcome.bind_ok]
    refine session_je hok hq arrange harr message bs hbs he (t :: rest) _ ex' (fun _ _ _ => .inr h5) (fun x hx hd => ?_) (by simp)
      (fun x hx => hsub x (List.mem_cons_of_mem _ hx)) fun x hx hr => ?_
    · rcases List.mem_append.1 hd with h | h
      · exact hdone x hx h
      · exact (ownedBy_iff _ _ _).2 ⟨s, hsub s (by simp), h⟩
    · rcases hc x hx hr with h | ⟨u, hu, h⟩
      · exact .inl (List.mem_append_left _ h)
      · rcases List.mem_cons.1 hu with h' | h'
        · rw [h'] at h
          exact .inl (List.mem_append_right _ h)
        · exact .inr ⟨u, h', h⟩

end Session
end
end Verif.Sigma
