import Verif.Proofs.MultiSigRun
import Verif.Proofs.FMap
import Mathlib.Algebra.Field.ZMod
import Mathlib.Tactic.FieldSimp

set_option linter.unusedSimpArgs false
set_option linter.unusedVariables false

/-!
# C44, C63: hints of several signers
-/

namespace Verif
open Verif.Sigma Verif.Spec

section
variable {G : Type} {q : Nat}

/-! ## C44: the bag -/

/-- What can be done to a transaction's hints. -/
inductive BagOp (G : Type) (q : Nat) where
  | add (input : Nat) (hints : List (Hint G q))
  | replace (input : Nat) (hints : List (Hint G q))

/-- Its effect on the bag. -/
def BagOp.run : BagOp G q → TxHints G q → TxHints G q
  | .add i hs, b => b.addFor i hs
  | .replace i hs, b => b.replaceFor i hs

/-- The bag after a history (latest first), from the empty one. -/
def bagAfter : List (BagOp G q) → TxHints G q
  | [] => .empty
  | op :: h => op.run (bagAfter h)

/-- The input an operation is for. -/
def BagOp.input : BagOp G q → Nat
  | .add i _ => i
  | .replace i _ => i

/-- Specification: the hints given for input `i` since the last replacement, the latest first. -/
def given (i : Nat) : List (BagOp G q) → List (Hint G q)
  | [] => []
  | .add j hs :: h => if j = i then hs ++ given i h else given i h
  | .replace j hs :: h => if j = i then hs else given i h

theorem bagAfter_secret (i : Nat) : ∀ (h : List (BagOp G q)),
    ((bagAfter h).secretHints.get i).getD [] = (given i h).filter Hint.isProven
  | [] => rfl
  | .add j hs :: h => by
    simp only [bagAfter, BagOp.run, TxHints.addFor, FMap.get_insert, given]
    by_cases hj : j = i
    · subst hj
      simp [bagAfter_secret j h]
    · simp [hj, Ne.symm hj, bagAfter_secret i h]
  | .replace j hs :: h => by
    simp only [bagAfter, BagOp.run, TxHints.replaceFor, FMap.get_insert, given]
    by_cases hj : j = i
    · subst hj
      simp
    · simp [hj, Ne.symm hj, bagAfter_secret i h]

theorem bagAfter_public (i : Nat) : ∀ (h : List (BagOp G q)),
    ((bagAfter h).publicHints.get i).getD [] = (given i h).filter Hint.isCommitment
  | [] => rfl
  | .add j hs :: h => by
    simp only [bagAfter, BagOp.run, TxHints.addFor, FMap.get_insert, given]
    by_cases hj : j = i
    · subst hj
      simp [bagAfter_public j h]
    · simp [hj, Ne.symm hj, bagAfter_public i h]
  | .replace j hs :: h => by
    simp only [bagAfter, BagOp.run, TxHints.replaceFor, FMap.get_insert, given]
    by_cases hj : j = i
    · subst hj
      simp
    · simp [hj, Ne.symm hj, bagAfter_public i h]

/-- C44 (first half; the second half of the claim, about secret randomness, is false: `C44_violation_public`).  After every history of
operations on a bag, the hints returned for an input are exactly those given for it since its last replacement — none lost, none
duplicated, none of another input — proofs first, then commitments, each group with the latest first. -/
theorem C44_history_partial (h : List (BagOp G q)) (i : Nat) :
    (bagAfter h).allFor i = (given i h).filter Hint.isProven ++ (given i h).filter Hint.isCommitment ∧
    ((bagAfter h).allFor i).Perm (given i h) := by
  have h1 : (bagAfter h).allFor i = (given i h).filter Hint.isProven ++ (given i h).filter Hint.isCommitment := by
    unfold TxHints.allFor
    rw [bagAfter_secret, bagAfter_public]
  refine ⟨h1, ?_⟩
  rw [h1]
  have : (Hint.isCommitment : Hint G q → Bool) = fun x => !Hint.isProven x := by
    funext x; cases x <;> rfl
  rw [this]
  exact List.filter_append_perm _ _

/-- Non-trivial case: two inputs, an addition, a replacement and another addition. -/
example : ((bagAfter [.add 0 [.realCommitment (.dlog 1) (.dlog 2) [0]], .add 1 [.ownCommitment (.dlog 1) 1 (.dlog 1) [0]],
      .replace 0 [.realCommitment (.dlog 2) (.dlog 0) [0, 1], .realProof (.dlog 1) (fsHash sumHash []) (.leaf (.dlog 1) none (fsHash sumHash []) 2) [0]],
      .add 0 [.realCommitment (.dlog 0) (.dlog 0) [0]]] : TxHints (ZMod 3) 3).allFor 0).length = 3 := by
  decide +kernel

/-- C44: operations on other inputs have no effect on an input's hints. -/
theorem C44_isolation (h h' : List (BagOp G q)) (i : Nat)
    (hsame : h.filter (fun op => decide (op.input = i)) = h'.filter (fun op => decide (op.input = i))) :
    (bagAfter h).allFor i = (bagAfter h').allFor i := by
  have key : ∀ l : List (BagOp G q), given i l = given i (l.filter (fun op => decide (op.input = i))) := by
    intro l
    induction l with
    | nil => rfl
    | cons op l ih =>
      cases op with
      | add j hs =>
        by_cases hj : j = i
        · simp [BagOp.input, hj, given, ih]
        · simp [BagOp.input, hj, given, ih]
      | replace j hs =>
        by_cases hj : j = i
        · simp [BagOp.input, hj, given]
        · simp [BagOp.input, hj, given, ih]
  rw [(C44_history_partial h i).1, (C44_history_partial h' i).1, key h, hsame, ← key h']

/-- Non-trivial case: different histories, the same operations for input 0. -/
example : ([.add 1 [], .add 0 [.realCommitment (.dlog 1) (.dlog 2) [0]], .replace 2 []] : List (BagOp (ZMod 3) 3)).filter
      (fun op => decide (op.input = 0)) =
    ([.add 0 [.realCommitment (.dlog 1) (.dlog 2) [0]], .add 3 []] : List (BagOp (ZMod 3) 3)).filter (fun op => decide (op.input = 0)) := by
  simp [BagOp.input]

/-- Finding for C44: after every history, an own commitment — with its secret random scalar — is on the public side of the bag, and
no own commitment is ever on the secret side. -/
theorem C44_violation_public (h : List (BagOp G q)) (i : Nat) (image : SigmaBoolean G) (r : ZMod q) (m : Msg G) (pos : Position)
    (hin : .ownCommitment image r m pos ∈ given i h) :
    (∃ hs, (bagAfter h).publicHints.get i = some hs ∧ .ownCommitment image r m pos ∈ hs) ∧
    ∀ hs, (bagAfter h).secretHints.get i = some hs → .ownCommitment image r m pos ∉ hs := by
  have hp := bagAfter_public i h
  have hs := bagAfter_secret i h
  constructor
  · have hm : (Hint.ownCommitment image r m pos) ∈ ((bagAfter h).publicHints.get i).getD [] := by
      rw [hp, List.mem_filter]; exact ⟨hin, rfl⟩
    cases hg : (bagAfter h).publicHints.get i with
    | none => rw [hg] at hm; cases hm
    | some l => rw [hg] at hm; exact ⟨l, rfl, hm⟩
  · intro l hl hm
    rw [hl] at hs
    simp only [Option.getD_some] at hs
    rw [hs, List.mem_filter] at hm
    cases hm.2

section
variable [DecidableEq G] [AddCommGroup G] [Module (ZMod q) G]

/-- C44: the hints `generate_commitments_for` makes are, for every leaf of the proposition whose key is asked for and in the order
of the leaves, the commitment and the own commitment with the random scalar of that position. -/
theorem C44_commitments (C : Curve G) (r : Position → ZMod q) (sb : SigmaBoolean G) (keys : List (SigmaBoolean G)) :
    generateCommitmentsFor C r sb keys = ((leaves sb).filter (fun x => keys.any (fun k => k.beq x.1.toSB))).flatMap fun x =>
      [.realCommitment x.1.toSB (firstMessage C x.1 (r x.2)) x.2, .ownCommitment x.1.toSB (r x.2) (firstMessage C x.1 (r x.2)) x.2] := by
  unfold generateCommitmentsFor
  rw [commitNode_leaves]
  unfold leaves
  generalize leavesAt sb cryptoTreePrefix = l
  induction l with
  | nil => rfl
  | cons x l ih =>
    rw [List.flatMap_cons, ih, List.filter_cons]
    split
    · rw [List.flatMap_cons]; rfl
    · rfl

theorem generateCommitments_add (C : Curve G) (r : Nat → Position → ZMod q) (keys : List (SigmaBoolean G)) :
    ∀ (sbs : List (SigmaBoolean G)) (i : Nat) (h : List (BagOp G q)), ∃ h', generateCommitments C r keys sbs i (bagAfter h) = bagAfter h' ∧
      (∀ k, (hk : k < sbs.length) → given (i + k) h' = generateCommitmentsFor C (r (i + k)) sbs[k] keys ++ given (i + k) h) ∧
      (∀ j, j < i ∨ i + sbs.length ≤ j → given j h' = given j h)
  | [], i, h => ⟨h, rfl, fun k hk => absurd hk (Nat.not_lt_zero _), fun _ _ => rfl⟩
  | sb :: rest, i, h => by
    obtain ⟨h', h1, h2, h3⟩ := generateCommitments_add C r keys rest (i + 1) (.add i (generateCommitmentsFor C (r i) sb keys) :: h)
    refine ⟨h', h1, ?_, ?_⟩
    · intro k hk
      cases k with
      | zero =>
        rw [h3 (i + 0) (.inl (by omega))]
        simp [given]
      | succ k =>
        have := h2 k (by simpa using hk)
        rw [show i + (k + 1) = i + 1 + k by omega, this]
        simp only [List.getElem_cons_succ, given]
        rw [if_neg (by omega)]
    · intro j hj
      rw [h3 j (by simp only [List.length_cons] at hj; omega)]
      simp only [given]
      rw [if_neg (by simp only [List.length_cons] at hj; omega)]

/-- C44: `generate_commitments` holds for each input exactly the hints made for its proposition, and none beyond the inputs. -/
theorem C44_generate (C : Curve G) (r : Nat → Position → ZMod q) (keys sbs : List (SigmaBoolean G)) (k : Nat) :
    ((generateCommitments C r keys sbs 0 .empty).allFor k) =
      (match sbs[k]? with
       | some sb => generateCommitmentsFor C (r k) sb keys
       | none => []) := by
  obtain ⟨h', h1, h2, h3⟩ := generateCommitments_add C r keys sbs 0 []
  rw [show (TxHints.empty : TxHints G q) = bagAfter [] from rfl, h1, (C44_history_partial h' k).1]
  by_cases hk : k < sbs.length
  · have := h2 k hk
    rw [Nat.zero_add] at this
    rw [this, List.getElem?_eq_getElem hk]
    simp only [given, List.append_nil]
    have hall : ∀ x ∈ generateCommitmentsFor C (r k) sbs[k] keys, x.isProven = false ∧ x.isCommitment = true := by
      intro x hx
      obtain ⟨y, _, _, rfl | rfl⟩ := (mem_generate C _ _ _ x).1 hx <;> exact ⟨rfl, rfl⟩
    rw [List.filter_eq_nil_iff.2 (fun x hx => by simp [(hall x hx).1]), List.filter_eq_self.2 (fun x hx => (hall x hx).2)]
    rfl
  · have := h3 k (.inr (by omega))
    rw [this, List.getElem?_eq_none (by omega)]
    rfl

/-- Non-trivial case: two inputs; the second one has two leaves with the key. -/
example : ((generateCommitments toyCurve (fun i p => (i + p.length : Nat)) [.dlog 1] [.dlog 2, .cand [.dlog 1, .cor [.dlog 0, .dlog 1]]] 0
    .empty : TxHints (ZMod 3) 3).allFor 1).length = 4 := by decide +kernel

theorem extractHints_add (C : Curve G) (real sim : List (SigmaBoolean G)) :
    ∀ (ins : List (SigmaBoolean G × Bytes)) (i : Nat) (h : List (BagOp G q)) (b : TxHints G q),
      extractHints C real sim ins i (bagAfter h) = .ok b → ∃ h', b = bagAfter h' ∧
      (∀ k, (hk : k < ins.length) → ∃ hs, bagForMultiSig C ins[k].1 real sim ins[k].2 = .ok hs ∧ given (i + k) h' = hs ++ given (i + k) h) ∧
      (∀ j, j < i ∨ i + ins.length ≤ j → given j h' = given j h)
  | [], i, h, b, e => by cases e; exact ⟨h, rfl, fun k hk => absurd hk (Nat.not_lt_zero _), fun _ _ => rfl⟩
  | (sb, proof) :: rest, i, h, b, e => by
    obtain ⟨hs, e1, e2⟩ := Outcome.bind_eq_ok.1 e
    obtain ⟨h', h1, h2, h3⟩ := extractHints_add C real sim rest (i + 1) (.add i hs :: h) b e2
    refine ⟨h', h1, ?_, ?_⟩
    · intro k hk
      cases k with
      | zero =>
        refine ⟨hs, e1, ?_⟩
        rw [h3 (i + 0) (.inl (by omega))]
        simp [given]
      | succ k =>
        obtain ⟨hs', e3, e4⟩ := h2 k (by simpa using hk)
        refine ⟨hs', e3, ?_⟩
        rw [show i + (k + 1) = i + 1 + k by omega, e4]
        simp only [given]
        rw [if_neg (by omega)]
    · intro j hj
      rw [h3 j (by simp only [List.length_cons] at hj; omega)]
      simp only [given]
      rw [if_neg (by simp only [List.length_cons] at hj; omega)]

/-- C44: the bag of `extract_hints` holds for each input of the transaction the hints extracted from the proof of that input (first
the proofs, then the commitments), and none beyond the inputs. -/
theorem C44_extract (C : Curve G) (real sim : List (SigmaBoolean G)) (ins : List (SigmaBoolean G × Bytes)) (b : TxHints G q)
    (h : extractHints C real sim ins 0 .empty = .ok b) :
    (∀ k sb proof, ins[k]? = some (sb, proof) → ∃ hs, bagForMultiSig C sb real sim proof = .ok hs ∧
      b.allFor k = hs.filter Hint.isProven ++ hs.filter Hint.isCommitment) ∧
    (∀ k, ins.length ≤ k → b.allFor k = []) := by
  obtain ⟨h', rfl, h2, h3⟩ := extractHints_add C real sim ins 0 [] b h
  constructor
  · intro k sb proof hk
    obtain ⟨hlt, he⟩ := List.getElem?_eq_some_iff.1 hk
    obtain ⟨hs, e1, e2⟩ := h2 k hlt
    rw [he] at e1
    refine ⟨hs, e1, ?_⟩
    rw [(C44_history_partial h' k).1]
    rw [Nat.zero_add] at e2
    rw [e2]
    simp [given]
  · intro k hk
    rw [(C44_history_partial h' k).1, h3 k (.inr (by omega))]
    rfl

/-- Non-trivial case: a proof made by one signer for the second of two inputs; its hints are found at index 1. -/
example : ((generateProof toyProver toyProp [7, 7] >>= fun proof =>
    extractHints toyCurve [.dlog 2] [.dlog 1] [(.trivial true, []), (toyProp, proof)] 0 (.empty : TxHints (ZMod 3) 3)) >>= fun b =>
      .ok (decide (b.allFor 0 = []), decide (6 ≤ (b.allFor 1).length), decide (b.allFor 2 = []))) = .ok (true, true, true) := by decide +kernel

/-- Finding for C44: the "public" hints of `generate_commitments` give the secret away.  For every leaf of an input's proposition with
a key asked for, the public side holds the random scalar of that leaf; and whoever knows it computes the secret from the response
that the signer publishes in the signature (unless the challenge is zero as a scalar). -/
theorem C44_violation_leak [Fact q.Prime] (C : Curve G) (r : Nat → Position → ZMod q) (keys sbs : List (SigmaBoolean G)) (k : Nat)
    (sb : SigmaBoolean G) (hk : sbs[k]? = some sb) (p : LeafProp G) (pos : Position) (hp : (p, pos) ∈ leaves sb) (hkey : p.toSB ∈ keys) :
    ∃ hs rnd m, (generateCommitments C r keys sbs 0 .empty).publicHints.get k = some hs ∧ .ownCommitment p.toSB rnd m pos ∈ hs ∧
      rnd = r k pos ∧ ∀ (w : ZMod q) (e : Challenge), (e.toScalar : ZMod q) ≠ 0 → (secondMessage w (r k pos) e - rnd) / e.toScalar = w := by
  obtain ⟨h', h1, h2, h3⟩ := generateCommitments_add C r keys sbs 0 []
  have hlt : k < sbs.length := by
    rcases Nat.lt_or_ge k sbs.length with h | h
    · exact h
    · rw [List.getElem?_eq_none h] at hk; cases hk
  have hg := h2 k hlt
  rw [Nat.zero_add] at hg
  rw [List.getElem?_eq_getElem hlt] at hk
  simp only [Option.some.injEq] at hk
  rw [hk] at hg
  have hin : Hint.ownCommitment p.toSB (r k pos) (firstMessage C p (r k pos)) pos ∈ given k h' := by
    rw [hg]
    exact List.mem_append_left _ ((mem_generate C _ _ sb _).2 ⟨(p, pos), hp, hkey, .inr rfl⟩)
  obtain ⟨⟨hs, hs1, hs2⟩, _⟩ := C44_violation_public h' k _ _ _ _ hin
  refine ⟨hs, r k pos, _, ?_, hs2, rfl, ?_⟩
  · rw [show (TxHints.empty : TxHints G q) = bagAfter [] from rfl, h1]
    exact hs1
  · intro w e he
    unfold secondMessage
    field_simp
    ring

/-- Non-trivial case. -/
example : ((.dlog 1 : LeafProp (ZMod 3)), [0, 1, 1]) ∈ leaves (.cand [.dlog 1, .cor [.dlog 0, .dlog 1]] : SigmaBoolean (ZMod 3)) ∧
    (LeafProp.dlog 1 : LeafProp (ZMod 3)).toSB ∈ [SigmaBoolean.dlog (1 : ZMod 3)] ∧
    ((fsHash sumHash [1]).toScalar : ZMod 3) ≠ 0 := by
  refine ⟨by simp [leaves, leavesAt, leavesAtList, cryptoTreePrefix], by simp [LeafProp.toSB], by decide +kernel⟩

/-! ## C63: signing by several parties -/

/-- C63: several signers sign an AND proposition (nested as one likes, with Schnorr and Diffie-Hellman leaves) together, no one
knowing another one's secrets.  Everybody makes commitments for their own keys and announces the public part; then one after
the other signs, with their own commitments, the announced ones and what `bag_for_multi_sig` extracts from the previous signature
for the keys done by then — in any order of hints in the bags, with any randomness.  If every leaf's key belongs to one of the
signers and to only one, all the turns succeed and the last signature is accepted by the ordinary verifier. -/
theorem C63_session [NeZero q] (hq : q ≤ 2 ^ 256) (C : Curve G) (hone : C.codec.one = 0) (sb : SigmaBoolean G) (hb : sb.Bounded)
    (ha : AndOnly sb) (ss : List (Signer G q)) (hne : ss ≠ [])
    (hone_owner : ∀ s ∈ ss, ∀ t ∈ ss, ∀ x ∈ leaves sb, x.1.toSB ∈ s.images C → x.1.toSB ∈ t.images C → s = t)
    (hcov : ∀ x ∈ leaves sb, ∃ s ∈ ss, x.1.toSB ∈ s.images C) (hok : ∀ s ∈ ss, SecretsOk s.secrets)
    (arrange : List (Hint G q) → List (Hint G q)) (harr : ∀ l, (arrange l).Perm l) (message : Bytes) :
    ∃ sig, signInTurn C arrange sb message (announced C sb ss) [] [] ss = .ok sig ∧ verifySignature q C sb message sig = .ok true := by
  obtain ⟨bs, hbs⟩ := fs_total (cmOf C ss) C.codec (fsHash C.hash []) (fun _ => (0 : ZMod q)) sb cryptoTreePrefix ha
  have hbs' : fsUnchecked C.codec (UT (fun p pos => some (cmOf C ss p pos)) (fsHash C.hash (bs ++ message)) (fun _ => (0 : ZMod q)) sb
      cryptoTreePrefix) = .ok bs := (fs_indep _ _ _ _ _ _ _ _ ha).trans hbs
  refine session C sb ss hq hone hb ha hone_owner hcov hok arrange (fun l h => (harr l).mem_iff) message bs _ hbs' rfl ss [] []
    ⟨?_, ?_⟩ hne (fun _ h => h) (fun x hx => .inr (hcov x hx))
  · intro h hm; cases hm
  · intro x _ hd; cases hd

/-- Three signers of the toy curve, one with two keys. -/
def toySigners : List (Signer (ZMod 3) 3) :=
  [⟨[.dlog 1], fun p => (p.length : Nat), toyRnd⟩, ⟨[.dht 2 1 2 2 1, .dlog 0], fun p => (p.foldl (· + ·) 1 : Nat), toyRnd⟩,
   ⟨[.dlog 2], fun _ => 2, toyRnd⟩]

/-- What they sign. -/
def toyJoint : SigmaBoolean (ZMod 3) := .cand [.dlog 2, .cand [.dht 1 2 2 1, .dlog 1], .dlog 0]

/-- Non-trivial case of the hypotheses of C63. -/
example : toyJoint.Bounded ∧ AndOnly toyJoint ∧
    (∀ s ∈ toySigners, ∀ t ∈ toySigners, ∀ x ∈ leaves toyJoint, x.1.toSB ∈ s.images toyCurve → x.1.toSB ∈ t.images toyCurve → s = t) ∧
    (∀ x ∈ leaves toyJoint, ∃ s ∈ toySigners, x.1.toSB ∈ s.images toyCurve) ∧ (∀ s ∈ toySigners, SecretsOk s.secrets) ∧
    (∀ l : List (Hint (ZMod 3) 3), l.reverse.Perm l) := by
  have i1 : (⟨[.dlog 1], fun p => (p.length : Nat), toyRnd⟩ : Signer (ZMod 3) 3).images toyCurve = [.dlog 1] := by with_unfolding_all rfl
  have i2 : (⟨[.dht 2 1 2 2 1, .dlog 0], fun p => (p.foldl (· + ·) 1 : Nat), toyRnd⟩ : Signer (ZMod 3) 3).images toyCurve =
    [.dht 1 2 2 1, .dlog 0] := by with_unfolding_all rfl
  have i3 : (⟨[.dlog 2], fun _ => 2, toyRnd⟩ : Signer (ZMod 3) 3).images toyCurve = [.dlog 2] := by with_unfolding_all rfl
  have hl : leaves toyJoint = [(.dlog 2, [0, 0]), (.dht 1 2 2 1, [0, 1, 0]), (.dlog 1, [0, 1, 1]), (.dlog 0, [0, 2])] := by
    simp [leaves, toyJoint, leavesAt, leavesAtList, cryptoTreePrefix]
  refine ⟨by simp [toyJoint, SigmaBoolean.Bounded, SigmaBoolean.BoundedList], by simp [toyJoint, AndOnly, AndOnlyList], ?_, ?_, ?_,
    fun l => List.reverse_perm l⟩
  · intro s hs t ht x hx h1 h2
    rw [hl] at hx
    simp only [toySigners, List.mem_cons, List.not_mem_nil, or_false] at hs ht hx
    rcases hs with rfl | rfl | rfl <;> rcases ht with rfl | rfl | rfl <;> try rfl
    all_goals
      simp only [i1, i2, i3] at h1 h2
      rcases hx with rfl | rfl | rfl | rfl <;> simp [LeafProp.toSB] at h1 h2
      all_goals first | exact absurd h1 (by decide) | exact absurd h2 (by decide)
  · intro x hx
    rw [hl] at hx
    simp only [List.mem_cons, List.not_mem_nil, or_false] at hx
    rcases hx with rfl | rfl | rfl | rfl
    · exact ⟨_, List.mem_cons_of_mem _ (List.mem_cons_of_mem _ List.mem_cons_self), by rw [i3]; simp [LeafProp.toSB]⟩
    · exact ⟨_, List.mem_cons_of_mem _ List.mem_cons_self, by rw [i2]; simp [LeafProp.toSB]⟩
    · exact ⟨_, List.mem_cons_self, by rw [i1]; simp [LeafProp.toSB]⟩
    · exact ⟨_, List.mem_cons_of_mem _ List.mem_cons_self, by rw [i2]; simp [LeafProp.toSB]⟩
  · intro s hs
    simp only [toySigners, List.mem_cons, List.not_mem_nil, or_false] at hs
    rcases hs with rfl | rfl | rfl
    · intro t ht; simp only [List.mem_singleton] at ht; subst ht; trivial
    · intro t ht
      simp only [List.mem_cons, List.not_mem_nil, or_false] at ht
      rcases ht with rfl | rfl
      · show (2 : ZMod 3) = 2 • (1 : ZMod 3) ∧ (1 : ZMod 3) = (2 : ZMod 3) • (2 : ZMod 3)
        decide
      · trivial
    · intro t ht; simp only [List.mem_singleton] at ht; subst ht; trivial

/-- A run: three signers, hints in reverse order. -/
example : (signInTurn toyCurve List.reverse toyJoint [7, 7] (announced toyCurve toyJoint toySigners) [] [] toySigners >>=
    verifySignature 3 toyCurve toyJoint [7, 7]) = .ok true := by decide +kernel

end
end
end Verif
