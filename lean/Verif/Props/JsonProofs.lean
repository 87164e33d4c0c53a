import Verif.Props.JsonHeader
import Verif.Props.JsonTx
import Verif.Props.NipopowCodec

set_option linter.unusedSimpArgs false
set_option linter.unusedVariables false

/-!
# C89: JSON form of Merkle proofs, NiPoPoW proofs and blocks
-/

namespace Verif
open Spec Json Merkle

/-- C89: a Merkle proof is read back from its JSON form. -/
theorem C89_merkle_roundtrip (p : Proof) (h : ∀ l ∈ p.levels, LevelSizes l) : readProof (writeProof p) = .ok p :=
  readProof_write h

/-- C89: so is a batch proof. -/
theorem C89_batch_roundtrip (p : Batch) (h : BatchSizes p) : readBatch (writeBatch p) = .ok p := readBatch_write h

/-- What a level gives in JSON: a side, and a hash, or no hash for the empty string. -/
def LevelMeans (s : Text) (n : Nat) (l : LevelNode) : Prop :=
  ((n = 0 ∧ l.side = .left) ∨ (n = 1 ∧ l.side = .right)) ∧
    ((s = [] ∧ l.hash = none) ∨ ∃ b : Bytes, b.length = 32 ∧ s.map lowerHex = hexEnc b ∧ l.hash = some b)

theorem readSide_iff (j : Json) (s : Side) :
    readSide j = .ok s ↔ ∃ n, j = .num (.nat n) ∧ ((n = 0 ∧ s = .left) ∨ (n = 1 ∧ s = .right)) := by
  unfold readSide readUint
  constructor
  · intro h
    obtain ⟨n, h1, h2⟩ := json_bind_ok.1 h
    split at h1
    · rename_i m
      split at h1
      · cases h1
        refine ⟨n, rfl, ?_⟩
        split at h2
        · cases h2; exact Or.inl ⟨by assumption, rfl⟩
        · split at h2
          · cases h2; exact Or.inr ⟨by assumption, rfl⟩
          · cases h2
      · cases h1
    · cases h1
  · rintro ⟨n, rfl, ⟨rfl, rfl⟩ | ⟨rfl, rfl⟩⟩ <;> rfl

theorem levelHash_iff (s : Text) (h : Option Bytes) :
    levelHash s = .ok h ↔
      (s = [] ∧ h = none) ∨ ∃ b : Bytes, b.length = 32 ∧ s.map lowerHex = hexEnc b ∧ h = some b := by
  unfold levelHash
  constructor
  · intro e
    obtain ⟨b, h1, h2⟩ := json_bind_ok.1 e
    have h1' := (C74_hex s b).1 (json_ofOpt.1 h1)
    by_cases h0 : b.length = 0
    · rw [if_pos h0] at h2
      cases h2
      rw [List.length_eq_zero_iff.1 h0] at h1'
      exact Or.inl ⟨List.map_eq_nil_iff.1 h1', rfl⟩
    · rw [if_neg h0] at h2
      split at h2
      · rename_i hl
        cases h2
        exact Or.inr ⟨b, hl, h1', rfl⟩
      · cases h2
  · rintro (⟨rfl, rfl⟩ | ⟨b, h1, h2, rfl⟩)
    · rfl
    · rw [(C74_hex s b).2 h2]
      show (if b.length = 0 then Outcome.ok none else if b.length = 32 then .ok (some b) else .err) = _
      rw [if_neg (by omega), if_pos h1]

/-- C89: a level is read from a pair of a string and a side, or in a batch proof from an object with both, and from nothing else;
the hash in it has 32 bytes or is absent. -/
theorem C89_levels (j : Json) (l : LevelNode) :
    (readLevel j = .ok l ↔ ∃ s n, j = .arr [.str s, .num (.nat n)] ∧ LevelMeans s n l) ∧
    (readBatchLevel j = .ok l ↔ ∃ o s n, j = .obj o ∧ req [kDigest] o = .ok (.str s) ∧ req [kSide] o = .ok (.num (.nat n)) ∧
      LevelMeans s n l) := by
  constructor
  · constructor
    · intro h
      unfold readLevel at h
      split at h
      · rename_i s k
        obtain ⟨t, h1, h⟩ := json_bind_ok.1 h
        obtain ⟨sd, h2, h⟩ := json_bind_ok.1 h
        obtain ⟨hh, h3, h⟩ := json_bind_ok.1 h
        cases h
        unfold readStr at h1
        split at h1
        · cases h1
          obtain ⟨n, rfl, hn⟩ := (readSide_iff _ _).1 h2
          exact ⟨t, n, rfl, hn, (levelHash_iff _ _).1 h3⟩
        · cases h1
      · cases h
    · rintro ⟨s, n, rfl, h1, h2⟩
      have e1 := (readSide_iff (.num (.nat n)) l.side).2 ⟨n, rfl, h1⟩
      have e2 := (levelHash_iff s l.hash).2 h2
      unfold readLevel
      simp only [readStr, Outcome.bind_ok, e1, e2]
      rfl
  · constructor
    · intro h
      unfold readBatchLevel at h
      split at h
      · rename_i o
        obtain ⟨t, h1, h⟩ := json_bind_ok.1 h
        obtain ⟨sd, h2, h⟩ := json_bind_ok.1 h
        obtain ⟨hh, h3, h⟩ := json_bind_ok.1 h
        cases h
        obtain ⟨x, hx, h1⟩ := json_bind_ok.1 h1
        obtain ⟨y, hy, h2⟩ := json_bind_ok.1 h2
        unfold readStr at h1
        split at h1
        · cases h1
          obtain ⟨n, rfl, hn⟩ := (readSide_iff _ _).1 h2
          exact ⟨o, t, n, rfl, hx, hy, hn, (levelHash_iff _ _).1 h3⟩
        · cases h1
      · cases h
    · rintro ⟨o, s, n, rfl, hx, hy, h1, h2⟩
      have e1 := (readSide_iff (.num (.nat n)) l.side).2 ⟨n, rfl, h1⟩
      have e2 := (levelHash_iff s l.hash).2 h2
      unfold readBatchLevel
      simp only [hx, hy, readStr, Outcome.bind_ok, e1, e2]
      rfl

/-- C89, violation: the leaf data, documented as a hash of 32 bytes with an error for other lengths, is accepted at any length. -/
theorem C89_leaf_violates (n : Nat) : ∃ j p, readProof j = .ok p ∧ p.leafData.length = n :=
  ⟨writeProof ⟨List.replicate n 0#8, []⟩, _, readProof_write (by intro l hl; cases hl), List.length_replicate ..⟩

section
variable {G : Type} [DecidableEq G]

/-- C89 (partial): a NiPoPoW proof whose headers all have a distance is read back from its JSON form.  Missing for the full
claim: proofs with a header without one, for which it fails (`C89_nipopow_violates`). -/
theorem C89_nipopow_roundtrip_partial (fl : Text → Option Int) (pc : PointCodec G) (p : NipopowProof G) (h : NipopowSizes p)
    (hd : ∀ x ∈ nipopowHeaders p, x.solution.distance ≠ none) : readNipopow fl pc (writeNipopow pc p) = .ok p :=
  readNipopow_write fl pc p h hd

/-- C89, violation: one header without a distance anywhere in it makes a proof unreadable. -/
theorem C89_nipopow_violates (fl : Text → Option Int) (pc : PointCodec G) (p : NipopowProof G) (h : NipopowSizes p)
    (hd : ∃ x ∈ nipopowHeaders p, x.solution.distance = none) : readNipopow fl pc (writeNipopow pc p) = .err :=
  readNipopow_null fl pc p h hd

end

section
variable {G B T : Type} [DecidableEq G]

/-- C89 (partial): a block of between one and ten million transactions whose header has a distance is read back from its JSON
form.  Missing for the full claim: headers without one, for which it fails (`C89_block_violates`). -/
theorem C89_block_roundtrip_partial (fl : Text → Option Int) (E : Sers G B T) (tp : Bytes → Option T) {bwf : B → Prop}
    {twf twf' : T → Prop} (h : GoodSers E bwf twf') (ht : TreeText E tp twf) (ord : List (Text × Json) → List (Text × Json))
    (ho : IsOrder ord) (b : FullBlock G B T) (g : HeaderSizes b.header) (i : Int) (hd : b.header.solution.distance = some i)
    (hn : 1 ≤ b.transactions.length ∧ b.transactions.length ≤ 10000000)
    (hp : ∀ t ∈ b.transactions, JsonParts E bwf twf t.inputs t.dataInputs t.cands ∧
      Tx.new E t.inputs t.dataInputs t.cands = .ok t) :
    ∃ j, writeBlock E ord b = .ok j ∧ readBlock fl E tp j = .ok b := by
  obtain ⟨js, h1, h2⟩ := writeMany_rt (g := readTx E tp) b.transactions fun t ht' =>
    C75_roundtrip E tp h ht ord ho t (hp t ht').1 (hp t ht').2
  refine ⟨_, by unfold writeBlock; rw [h1]; rfl, ?_⟩
  have e1 : readBlockTxs E tp (.obj [(kTransactions, .arr js)]) = .ok b.transactions := by
    unfold readBlockTxs
    refine Eq.trans (congrArg₂ Bind.bind h2 rfl) ?_
    rw [Outcome.bind_ok]
    exact if_pos hn
  unfold readBlock
  simp only []
  refine Eq.trans (congrArg₂ Bind.bind (readHeader_write fl E.pc b.header g i hd) rfl) ?_
  rw [Outcome.bind_ok]
  refine Eq.trans (congrArg₂ Bind.bind e1 rfl) ?_
  rfl

/-- C89, violation: a block whose header has no distance is written in a form that is refused. -/
theorem C89_block_violates (fl : Text → Option Int) (E : Sers G B T) (tp : Bytes → Option T)
    (ord : List (Text × Json) → List (Text × Json)) (b : FullBlock G B T) (g : HeaderSizes b.header)
    (hd : b.header.solution.distance = none) (j : Json) (h : writeBlock E ord b = .ok j) : readBlock fl E tp j = .err := by
  unfold writeBlock at h
  obtain ⟨ts, _, h⟩ := json_bind_ok.1 h
  cases h
  unfold readBlock
  simp only []
  exact bind_err_of (readHeader_null fl E.pc b.header g hd)

/-- C89: a block that was read has between one and ten million transactions, each with the ids that its contents give. -/
theorem C89_block_content (fl : Text → Option Int) (E : Sers G B T) (tp : Bytes → Option T) {bwf : B → Prop}
    (hp : BoxParsed E.bc bwf) (j : Json) (b : FullBlock G B T) (h : readBlock fl E tp j = .ok b) :
    HeaderSizes b.header ∧ 1 ≤ b.transactions.length ∧ b.transactions.length ≤ 10000000 ∧
      ∀ t ∈ b.transactions, t.calcId E = .ok t.txId ∧ Tx.new E t.inputs t.dataInputs t.cands = .ok t := by
  unfold readBlock at h
  split at h
  · rename_i o
    obtain ⟨hd, h1, h⟩ := json_bind_ok.1 h
    obtain ⟨ts, h2, h⟩ := json_bind_ok.1 h
    cases h
    obtain ⟨x, _, h1⟩ := json_bind_ok.1 h1
    obtain ⟨y, _, h2⟩ := json_bind_ok.1 h2
    refine ⟨readHeader_sizes fl E.pc x hd h1, ?_⟩
    unfold readBlockTxs at h2
    split at h2
    · rename_i o'
      obtain ⟨l, h3, h4⟩ := json_bind_ok.1 h2
      obtain ⟨z, _, h3⟩ := json_bind_ok.1 h3
      split at h4
      · rename_i hn
        cases h4
        refine ⟨hn.1, hn.2, fun t ht => ?_⟩
        obtain ⟨js, hall⟩ : ∃ js, List.Forall₂ (fun j a => readTx E tp j = .ok a) js ts := by
          unfold readArr at h3
          split at h3
          · exact ⟨_, readArr_go_iff.1 h3⟩
          · cases h3
        have hmem : ∀ (js : List Json) (ts : List (Tx G B T)), List.Forall₂ (fun j a => readTx E tp j = .ok a) js ts →
            ∀ t ∈ ts, ∃ j, readTx E tp j = .ok t := by
          intro js ts hf
          induction hf with
          | nil => intro t ht; cases ht
          | cons h1 _ ih =>
            intro t ht
            rcases List.mem_cons.1 ht with rfl | ht
            · exact ⟨_, h1⟩
            · exact ih t ht
        obtain ⟨j, hj⟩ := hmem _ _ hall t ht
        have h6 := ((C75_reads_partial E tp hp j).1 t hj).2
        refine ⟨?_, h6⟩
        cases j with
        | obj o'' => exact (C75_id E tp hp o'' t hj).1
        | null => cases hj
        | bool => cases hj
        | num => cases hj
        | str => cases hj
        | arr => cases hj
      · cases h4
    · cases h2
  · cases h

end

/-! ## Cases -/

/-- A level with an empty hash and one with a hash survive; an unknown side and a short hash are refused. -/
example : readProof (writeProof ⟨[1, 2, 3], [⟨none, .left⟩, ⟨some (List.replicate 32 7), .right⟩]⟩) =
      .ok ⟨[1, 2, 3], [⟨none, .left⟩, ⟨some (List.replicate 32 7), .right⟩]⟩ ∧
    readLevel (.arr [.str [], .num (.nat 2)]) = .err ∧ readLevel (.arr [.str ['0', 'a'], .num (.nat 1)]) = .err := by
  refine ⟨C89_merkle_roundtrip _ ?_, rfl, rfl⟩
  intro l hl
  simp only [List.mem_cons, List.not_mem_nil, or_false] at hl
  rcases hl with rfl | rfl
  · intro b hb; cases hb
  · intro b hb; cases hb; rfl

/-- Batch proofs. -/
def smallBatch : Batch := { indices := [{ index := 3, hash := List.replicate 32 1 }], proofs := [⟨some (List.replicate 32 7), .right⟩, ⟨none, .left⟩] }

theorem smallBatch_sizes : BatchSizes smallBatch := by
  constructor
  · intro x hx
    simp only [smallBatch, List.mem_cons, List.not_mem_nil, or_false] at hx
    subst hx
    exact ⟨rfl, by decide⟩
  · intro l hl
    simp only [smallBatch, List.mem_cons, List.not_mem_nil, or_false] at hl
    rcases hl with rfl | rfl
    · intro b hb; cases hb; rfl
    · intro b hb; cases hb

example : readBatch (writeBatch smallBatch) = .ok smallBatch := C89_batch_roundtrip _ smallBatch_sizes

/-- NiPoPoW proofs: with the first header it is read back, with the second one in its tail not. -/
example (fl : Text → Option Int) :
    let p : NipopowProof (Fin 3) :=
      ⟨6, 10, [⟨headerV1, [List.replicate 32 5], smallBatch⟩], ⟨headerV1, [], smallBatch⟩, [headerV1]⟩
    readNipopow fl toyCodec (writeNipopow toyCodec p) = .ok p ∧
    readNipopow fl toyCodec (writeNipopow toyCodec { p with suffixTail := [headerV1, headerV2] }) = .err := by
  have s1 : ∀ links : List Bytes, (∀ b ∈ links, b.length = 32) → PoPowSizes (⟨headerV1, links, smallBatch⟩ : PoPowHeader (Fin 3)) :=
    fun links hl => ⟨headerV1_sizes, hl, smallBatch_sizes⟩
  have s2 : PoPowSizes (⟨headerV1, [List.replicate 32 5], smallBatch⟩ : PoPowHeader (Fin 3)) :=
    s1 _ (by intro b hb; rw [List.mem_singleton.1 hb]; rfl)
  have s3 : PoPowSizes (⟨headerV1, [], smallBatch⟩ : PoPowHeader (Fin 3)) := s1 _ (by intro b hb; cases hb)
  constructor
  · refine C89_nipopow_roundtrip_partial fl toyCodec _ ⟨?_, s3, ?_⟩ ?_
    · intro x hx; rw [List.mem_singleton.1 hx]; exact s2
    · intro x hx; rw [List.mem_singleton.1 hx]; exact headerV1_sizes
    · intro x hx
      simp only [nipopowHeaders, List.map_cons, List.map_nil, List.cons_append, List.nil_append, List.mem_cons,
        List.not_mem_nil, or_false, or_self] at hx
      rw [hx]; decide
  · refine C89_nipopow_violates fl toyCodec _ ⟨?_, s3, ?_⟩ ⟨headerV2, ?_, rfl⟩
    · intro x hx; rw [List.mem_singleton.1 hx]; exact s2
    · intro x hx
      simp only [List.mem_cons, List.not_mem_nil, or_false] at hx
      rcases hx with rfl | rfl
      · exact headerV1_sizes
      · exact headerV2_sizes
    · simp [nipopowHeaders]

/-- A block with the transaction of the examples of C11. -/
example : ∃ b : FullBlock _ _ _, HeaderSizes b.header ∧ b.header.solution.distance = some (-300) ∧ b.transactions.length = 1 ∧
    ∀ t ∈ b.transactions, JsonParts toySers (fun _ => True) (fun _ => True) t.inputs t.dataInputs t.cands ∧
      Tx.new toySers t.inputs t.dataInputs t.cands = .ok t := by
  obtain ⟨t, h0, h1, h2, h2', h3⟩ := C11_constructor_total toySers _ _ toySers_good _ _ _ exParts_good
  refine ⟨⟨headerV1, [t]⟩, headerV1_sizes, rfl, rfl, ?_⟩
  intro x hx
  rw [List.mem_singleton.1 hx]
  exact ⟨C75_good_tx toySers t h1, h1.made⟩

end Verif
