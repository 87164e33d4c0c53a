import Verif.Proofs.Nesting
import Verif.Props.Register

set_option linter.unusedSimpArgs false
set_option linter.unusedVariables false

/-!
# C10 – transaction ids; C11 – transaction bytes; C49 – output box ids
-/

namespace Verif
open Spec

section
variable {G B T : Type} [DecidableEq G]

/-- C10: transactions that differ only in their spending proofs have the same bytes to sign and the same id. -/
theorem C10_ignores_proofs (E : Sers G B T) (t t' : Tx G B T) (h : essence t = essence t') :
    t.bytesToSign E = t'.bytesToSign E ∧ t.calcId E = t'.calcId E := by
  simp only [essence, Prod.mk.injEq] at h
  have : t.bytesToSign E = t'.bytesToSign E := by
    rw [Tx.bytesToSign_eq, Tx.bytesToSign_eq, map_toSign_eq.2 h.1, h.2.1, h.2.2]
  exact ⟨this, by unfold Tx.calcId; rw [this]⟩

/-- C10: the bytes to sign determine everything except the proofs. -/
theorem C10_bytes_injective (E : Sers G B T) (bwf : B → Prop) (twf : T → Prop) (h : GoodSers E bwf twf)
    (t t' : Tx G B T) (g : GoodTx E bwf twf t) (g' : GoodTx E bwf twf t') (m : Bytes)
    (e : t.bytesToSign E = .ok m) (e' : t'.bytesToSign E = .ok m) : essence t = essence t' := by
  rw [Tx.bytesToSign_eq] at e e'
  obtain ⟨h1, h2, h3⟩ := txParts_inj E h (goodParts_toSign g.parts) (goodParts_toSign g'.parts) e e'
  unfold essence
  rw [map_toSign_eq.1 h1, h2, h3]

/-- C10: two transactions with the same id spend the same boxes with the same context variables, read the same boxes and
create the same boxes, unless their bytes to sign collide under the hash. -/
theorem C10_commits (E : Sers G B T) (bwf : B → Prop) (twf : T → Prop) (h : GoodSers E bwf twf)
    (t t' : Tx G B T) (g : GoodTx E bwf twf t) (g' : GoodTx E bwf twf t') (e : t.txId = t'.txId) :
    essence t = essence t' ∨
      ∃ m m', t.bytesToSign E = .ok m ∧ t'.bytesToSign E = .ok m' ∧ Collision E.H [m] [m'] := by
  obtain ⟨_, _, _, c, _⟩ := Tx.new_spec E g.made
  obtain ⟨_, _, _, c', _⟩ := Tx.new_spec E g'.made
  unfold Tx.calcId at c c'
  obtain ⟨m, e1, e2⟩ := Outcome.bind_eq_ok.1 c
  obtain ⟨m', e1', e2'⟩ := Outcome.bind_eq_ok.1 c'
  simp only [Outcome.pure_eq, Outcome.ok.injEq] at e2 e2'
  by_cases hm : m = m'
  · subst hm
    exact Or.inl (C10_bytes_injective E bwf twf h t t' g g' m e1 e1')
  · exact Or.inr ⟨m, m', e1, e1', m, by simp, m', by simp, hm, by rw [e2, e2', e]⟩

theorem attachProofs_spec : ∀ (is : List (UnsignedInput G B)) (ps : List ProofBytes),
    (is.length ≤ ps.length → ∃ l, attachProofs is ps = some l) ∧ (ps.length < is.length → attachProofs is ps = none) ∧
    ∀ l, attachProofs is ps = some l → l = List.zipWith Input.ofUnsigned is ps ∧ l.length = is.length ∧
      l.map Input.toSign = is.map UnsignedInput.toSign
  | [], ps => by
    refine ⟨fun _ => ⟨[], by rw [attachProofs]⟩, fun h => by simp at h, fun l h => ?_⟩
    rw [attachProofs] at h
    simp only [Option.some.injEq] at h
    subst h
    simp
  | i :: is, [] => by
    refine ⟨fun h => by simp at h, fun _ => by rw [attachProofs], fun l h => ?_⟩
    rw [attachProofs] at h
    cases h
  | i :: is, p :: ps => by
    obtain ⟨h1, h2, h3⟩ := attachProofs_spec is ps
    refine ⟨fun h => ?_, fun h => ?_, fun l h => ?_⟩
    · obtain ⟨l, e⟩ := h1 (by simpa using h)
      exact ⟨Input.ofUnsigned i p :: l, by rw [attachProofs, e]; rfl⟩
    · rw [attachProofs, h2 (by simpa using h)]; rfl
    · rw [attachProofs] at h
      obtain ⟨l', e1, e2⟩ := Option.bind_eq_some_iff.1 h
      simp only [Option.pure_def, Option.some.injEq] at e2
      subst e2
      obtain ⟨a, b, c⟩ := h3 l' e1
      refine ⟨by simp [a], by simp [b], ?_⟩
      simp only [List.map_cons, c]
      rfl

/-- C10: signing an unsigned transaction, with any proofs, keeps its id and its message; input `k` gets proof `k`. -/
theorem C10_signing_keeps_id (E : Sers G B T) (is : List (UnsignedInput G B)) (d : Option (List Bytes))
    (c : List (BoxCand G B T)) (u : UnsignedTransaction G B T) (hu : UnsignedTransaction.new E is d c = .ok u)
    (proofs : List ProofBytes) (t : Tx G B T) (ht : Tx.ofUnsigned E u proofs = .ok t) :
    t.txId = u.txId ∧ t.bytesToSign E = u.bytesToSign E ∧ t.dataInputs = d ∧ t.cands = c ∧
      t.inputs = List.zipWith Input.ofUnsigned is proofs ∧ t.inputs.length = is.length := by
  unfold UnsignedTransaction.new at hu
  obtain ⟨m, h1, h2⟩ := Outcome.bind_eq_ok.1 hu
  simp only [Outcome.pure_eq, Outcome.ok.injEq] at h2
  subst h2
  unfold Tx.ofUnsigned at ht
  obtain ⟨l, h3, h4⟩ := Outcome.bind_eq_ok.1 ht
  have h3' : attachProofs is proofs = some l := by
    cases e : attachProofs is proofs with
    | none => simp only [e, ofOpt] at h3; cases h3
    | some x => simp only [e, ofOpt, Outcome.ok.injEq] at h3; rw [h3]
  obtain ⟨a1, a2, a3⟩ := (attachProofs_spec is proofs).2.2 l h3'
  obtain ⟨s1, s2, s3, s4, _⟩ := Tx.new_spec E h4
  have hsign : ∀ (x : List (UnsignedInput G B)), (x.map UnsignedInput.toSign).map Input.toSign = x.map UnsignedInput.toSign := by
    intro x; simp only [List.map_map]; rfl
  -- the message of the unsigned transaction
  have hb : ∀ id : Bytes, UnsignedTransaction.bytesToSign E { txId := id, inputs := is, dataInputs := d, cands := c } = .ok m →
      serTxParts E (is.map UnsignedInput.toSign) d c = .ok m := by
    intro id hh
    unfold UnsignedTransaction.bytesToSign UnsignedTransaction.toTx at hh
    obtain ⟨t0, g1, g2⟩ := Outcome.bind_eq_ok.1 hh
    obtain ⟨r1, r2, r3, _⟩ := Tx.new_spec E g1
    rw [Tx.bytesToSign_eq, r1, r2, r3] at g2
    simp only [hsign] at g2
    exact g2
  have hm := hb _ h1
  have ht' : t.bytesToSign E = .ok m := by
    rw [Tx.bytesToSign_eq, s1, s2, s3, a3]; exact hm
  have hu' : UnsignedTransaction.bytesToSign E { txId := E.H m, inputs := is, dataInputs := d, cands := c } = .ok m := h1
  refine ⟨?_, by rw [ht', hu'], s2, s3, by rw [s1, a1], by rw [s1, a2]⟩
  unfold Tx.calcId at s4
  rw [ht'] at s4
  simp only [Outcome.bind_ok, Outcome.pure_eq, Outcome.ok.injEq] at s4
  exact s4.symm

/-- C10: too few proofs are refused; enough proofs (and good parts) always give a transaction. -/
theorem C10_signing_total (E : Sers G B T) (bwf : B → Prop) (twf : T → Prop) (h : GoodSers E bwf twf)
    (u : UnsignedTransaction G B T) (proofs : List ProofBytes)
    (hp : ∀ p ∈ proofs, GoodProof p) (hg : GoodParts E.utf8 bwf twf (u.inputs.map UnsignedInput.toSign) u.dataInputs u.cands) :
    (proofs.length < u.inputs.length → Tx.ofUnsigned E u proofs = .err) ∧
    (u.inputs.length ≤ proofs.length → ∃ t, Tx.ofUnsigned E u proofs = .ok t) := by
  obtain ⟨h1, h2, h3⟩ := attachProofs_spec u.inputs proofs
  constructor
  · intro hl
    unfold Tx.ofUnsigned
    rw [h2 hl]
    rfl
  · intro hl
    obtain ⟨l, e⟩ := h1 hl
    obtain ⟨a1, a2, a3⟩ := h3 l e
    unfold Tx.ofUnsigned
    rw [e]
    apply Tx.new_ok E h
    refine ⟨by have := hg.inputsCount; simp only [List.length_map] at this; omega, ?_, hg.dataInputs, hg.candsCount, hg.cands⟩
    intro i hi
    rw [a1] at hi
    obtain ⟨k, hk, rfl⟩ := List.mem_iff_getElem.1 hi
    simp only [List.length_zipWith] at hk
    rw [List.getElem_zipWith]
    have gi := hg.inputs (u.inputs[k].toSign) (List.mem_map.2 ⟨u.inputs[k], List.getElem_mem _, rfl⟩)
    exact ⟨gi.boxId, hp _ (List.getElem_mem _), gi.ext⟩

/-- C11: every transaction the library can hold is written, and reading it back in any stream gives the same transaction
(inputs with proofs, data inputs, candidates, id and output boxes) and leaves what followed. -/
theorem C11_roundtrip (E : Sers G B T) (bwf : B → Prop) (twf : T → Prop) (h : GoodSers E bwf twf)
    (t : Tx G B T) (g : GoodTx E bwf twf t) :
    ∃ bs, t.ser E = .ok bs ∧ ∀ rest, Tx.parse E (bs ++ rest) = some (t, rest) :=
  Tx.rt E h t g

/-- C11: a box is read back with its id. -/
theorem C11_box_roundtrip (E : Sers G B T) (bwf : B → Prop) (twf : T → Prop) (h : GoodSers E bwf twf)
    (b : EBox G B T) (g : GoodBox E bwf twf b) :
    ∃ bs, b.ser E = .ok bs ∧ ∀ rest, EBox.parse E (bs ++ rest) = some (b, rest) :=
  EBox.rt E h b g

/-- C11: an output candidate alone is read back. -/
theorem C11_candidate_roundtrip (E : Sers G B T) (bwf : B → Prop) (twf : T → Prop) (h : GoodSers E bwf twf)
    (c : BoxCand G B T) (g : GoodCand E.utf8 bwf twf c) :
    ∃ bs, c.ser E = .ok bs ∧ ∀ rest, BoxCand.parse E (bs ++ rest) = some (c, rest) :=
  BoxCand.rtWith E h none c g trivial

/-- C11: the constructor accepts all parts within the bounds, and what it makes is a transaction in the sense above. -/
theorem C11_constructor_total (E : Sers G B T) (bwf : B → Prop) (twf : T → Prop) (h : GoodSers E bwf twf)
    (inputs : List (Input G B)) (dataInputs : Option (List Bytes)) (cands : List (BoxCand G B T))
    (hg : GoodParts E.utf8 bwf twf inputs dataInputs cands) :
    ∃ t, Tx.newFromVec E inputs (dataInputs.getD []) cands = .ok t ∧ GoodTx E bwf twf t ∧ t.inputs = inputs ∧
      t.dataInputs = dataInputs ∧ t.cands = cands := by
  obtain ⟨t, e⟩ := Tx.new_ok E h hg
  obtain ⟨s1, s2, s3, _⟩ := Tx.new_spec E e
  refine ⟨t, by rw [newFromVec_good E hg, e], ⟨?_, ?_⟩, s1, s2, s3⟩
  · rw [s1, s2, s3]; exact hg
  · rw [s1, s2, s3]; exact e

/-- C11: whatever bytes are read as a transaction, the result is within the bounds: it can be written, and is then read
back unchanged. -/
theorem C11_read_good (E : Sers G B T) (bwf : B → Prop) (twf : T → Prop) (hb : BoxParsed E.bc bwf)
    (ht : Post twf E.tc.parse) (s r : Bytes) (t : Tx G B T) (h : Tx.parse E s = some (t, r)) : GoodTx E bwf twf t :=
  Tx.parsed E hb ht s t r h

/-- C11: the token table of a transaction lists every token id of the outputs once, and the index written for a token of an
output is the position of its id in the table. -/
theorem C11_token_index (cands : List (BoxCand G B T)) (hl : (distinctTokenIds cands).length < 2 ^ 32) :
    (distinctTokenIds cands).Nodup ∧
    (∀ x, x ∈ distinctTokenIds cands ↔ ∃ c ∈ cands, ∃ t ∈ c.tokens.getD [], t.1 = x) ∧
    ∀ c ∈ cands, ∀ t ∈ c.tokens.getD [], ∃ i : Nat, (distinctTokenIds cands)[i]? = some t.1 ∧
      serToken (some (distinctTokenIds cands)) t =
        .ok (putU32 (BitVec.ofNat 32 i) ++ putU64 (BitVec.ofNat 64 t.2)) := by
  refine ⟨IdSet.nodup_ofList _, mem_distinctTokenIds cands, fun c hc t ht => ?_⟩
  obtain ⟨i, e1, e2, e3⟩ := IdSet.indexOf_some (distinctTokenIds cands) t.1
    ((mem_distinctTokenIds cands t.1).2 ⟨c, hc, t, ht, rfl⟩)
  refine ⟨i, e2, ?_⟩
  unfold serToken
  simp only [e1, putCount32_ok (Nat.lt_trans e3 hl)]
  rfl

/-- C49: the outputs of a transaction are its candidates in order, labelled with the transaction id and their position, and
carry the hash of their own bytes as id. -/
theorem C49_outputs (E : Sers G B T) (bwf : B → Prop) (twf : T → Prop) (t : Tx G B T) (g : GoodTx E bwf twf t) :
    t.outputs.length = t.cands.length ∧ ∀ (i : Nat) (b : EBox G B T), t.outputs[i]? = some b →
      t.cands[i]? = some b.toCand ∧ b.txId = t.txId ∧ b.index.toNat = i ∧ b.calcId E = .ok b.boxId ∧
        GoodBox E bwf twf b := by
  obtain ⟨_, _, _, hid, ho⟩ := Tx.new_spec E g.made
  obtain ⟨h1, h2⟩ := outputsFrom_spec E _ _ _ _ ho
  refine ⟨h1, fun i b hb => ?_⟩
  have hlt : i < t.outputs.length := (List.getElem?_eq_some_iff.1 hb).1
  have hlt' : i < t.cands.length := by omega
  obtain ⟨b', e1, e2⟩ := h2 i t.cands[i] (List.getElem?_eq_getElem hlt')
  rw [hb] at e1
  cases e1
  obtain ⟨s1, s2, s3, s4⟩ := EBox.ofCand_spec E e2
  have hcnt := g.parts.candsCount.2
  refine ⟨by rw [s1]; exact List.getElem?_eq_getElem hlt', s2, ?_, s4, ?_⟩
  · rw [s3, Nat.zero_add, toNat_ofNat16 (by omega)]
  · refine ⟨s1 ▸ g.parts.cands _ (List.getElem_mem hlt'), ?_, s4⟩
    rw [s2]
    unfold Tx.calcId at hid
    obtain ⟨m, _, e⟩ := Outcome.bind_eq_ok.1 hid
    simp only [Outcome.pure_eq, Outcome.ok.injEq] at e
    rw [← e]
    exact E.H.len m

/-- C49: equal box ids mean equal boxes (contents, transaction id and index), unless the bytes of the two boxes collide. -/
theorem C49_box_id_commits (E : Sers G B T) (bwf : B → Prop) (twf : T → Prop) (h : GoodSers E bwf twf)
    (b b' : EBox G B T) (g : GoodBox E bwf twf b) (g' : GoodBox E bwf twf b') (e : b.boxId = b'.boxId) :
    b = b' ∨ ∃ m m', b.ser E = .ok m ∧ b'.ser E = .ok m' ∧ Collision E.H [m] [m'] := by
  have c := g.id
  have c' := g'.id
  unfold EBox.calcId at c c'
  obtain ⟨m, e1, e2⟩ := Outcome.bind_eq_ok.1 c
  obtain ⟨m', e1', e2'⟩ := Outcome.bind_eq_ok.1 c'
  simp only [Outcome.pure_eq, Outcome.ok.injEq] at e2 e2'
  by_cases hm : m = m'
  · subst hm
    exact Or.inl (Rto.prefix_free (EBox.rt E h) g g' e1 e1' (r := []) (r' := []) rfl).1
  · exact Or.inr ⟨m, m', e1, e1', m, by simp, m', by simp, hm, by rw [e2, e2', e]⟩

/-- C49: two outputs of one transaction never have the same id (or their bytes collide), even if they have the same
contents. -/
theorem C49_outputs_distinct (E : Sers G B T) (bwf : B → Prop) (twf : T → Prop) (h : GoodSers E bwf twf)
    (t : Tx G B T) (g : GoodTx E bwf twf t) (i j : Nat) (b b' : EBox G B T)
    (hi : t.outputs[i]? = some b) (hj : t.outputs[j]? = some b') (hne : i ≠ j) (e : b.boxId = b'.boxId) :
    ∃ m m', b.ser E = .ok m ∧ b'.ser E = .ok m' ∧ Collision E.H [m] [m'] := by
  obtain ⟨_, h2⟩ := C49_outputs E bwf twf t g
  obtain ⟨_, _, x, _, gb⟩ := h2 i b hi
  obtain ⟨_, _, x', _, gb'⟩ := h2 j b' hj
  rcases C49_box_id_commits E bwf twf h b b' gb gb' e with rfl | hc
  · exact absurd (x.symm.trans x') hne
  · exact hc

/-- C49: the id of an output determines the transaction that made it, up to proofs, unless there is a collision. -/
theorem C49_box_id_fixes_transaction (E : Sers G B T) (bwf : B → Prop) (twf : T → Prop) (h : GoodSers E bwf twf)
    (t t' : Tx G B T) (g : GoodTx E bwf twf t) (g' : GoodTx E bwf twf t') (b b' : EBox G B T)
    (hb : b ∈ t.outputs) (hb' : b' ∈ t'.outputs) (e : b.boxId = b'.boxId) :
    (essence t = essence t' ∧ b = b') ∨ ∃ xs ys, Collision E.H xs ys := by
  obtain ⟨i, hi⟩ := List.mem_iff_getElem?.1 hb
  obtain ⟨j, hj⟩ := List.mem_iff_getElem?.1 hb'
  obtain ⟨_, x, _, _, gb⟩ := (C49_outputs E bwf twf t g).2 i b hi
  obtain ⟨_, x', _, _, gb'⟩ := (C49_outputs E bwf twf t' g').2 j b' hj
  rcases C49_box_id_commits E bwf twf h b b' gb gb' e with rfl | ⟨m, m', _, _, hc⟩
  · rcases C10_commits E bwf twf h t t' g g' (x.symm.trans x') with h1 | ⟨m, m', _, _, hc⟩
    · exact Or.inl ⟨h1, rfl⟩
    · exact Or.inr ⟨_, _, hc⟩
  · exact Or.inr ⟨_, _, hc⟩

end

/-! ## All nesting depths of boxes in constants -/

section
variable {G T : Type} [DecidableEq G]

/-- C11: the round trip for transactions whose registers and context variables hold boxes, whose registers hold boxes, … to
any depth `n`; only the ErgoTree codec is assumed to round-trip. -/
theorem C11_roundtrip_nested (utf8 : Bytes → Bool) (pc : PointCodec G) (tc : BoxCodec T) (H : HashFn) (twf : T → Prop)
    (ht : Rto twf tc.ser tc.parse) (hn : NonExp tc.parse) (n : Nat) (t : Tx G (BoxAt G T n) T)
    (g : GoodTx (sersAt utf8 pc tc H n) (GoodBoxAt utf8 pc tc H twf n) twf t) :
    ∃ bs, t.ser (sersAt utf8 pc tc H n) = .ok bs ∧
      ∀ rest, Tx.parse (sersAt utf8 pc tc H n) (bs ++ rest) = some (t, rest) :=
  C11_roundtrip _ _ _ (goodSersAt utf8 pc tc H twf ht hn n) t g

/-- C11: what is read is within the bounds at every nesting depth. -/
theorem C11_read_good_nested (utf8 : Bytes → Bool) (pc : PointCodec G) (tc : BoxCodec T) (H : HashFn) (twf : T → Prop)
    (hp : Post twf tc.parse) (n : Nat) (s r : Bytes) (t : Tx G (BoxAt G T n) T)
    (h : Tx.parse (sersAt utf8 pc tc H n) s = some (t, r)) :
    GoodTx (sersAt utf8 pc tc H n) (GoodBoxAt utf8 pc tc H twf n) twf t :=
  C11_read_good _ _ _ (boxParsedAt utf8 pc tc H twf hp n) hp s r t h

end

/-! ## Cases -/

/-- A token id. -/
def tid (b : Byte) : Bytes := List.replicate 32 b

/-- Two outputs sharing a token, with registers. -/
def exCands : List (BoxCand (Fin 3) Empty Byte) :=
  [{ value := 1000000, tree := 7, tokens := some [(tid 1, 5), (tid 2, 6)], regs := [.parsed (intConst 4)], height := 3 },
   { value := 20000, tree := 8, tokens := some [(tid 2, 9)], regs := [], height := 3 }]

def exInputs : List (Input (Fin 3) Empty) := [⟨tid 9, ⟨.some [1, 2, 3], [(0, intConst 5)]⟩⟩, ⟨tid 8, ⟨.empty, []⟩⟩]

theorem exParts_good : GoodParts toySers.utf8 (fun _ => True) (fun _ => True) exInputs (some [tid 3]) exCands where
  inputsCount := by decide
  inputs := by
    intro i hi
    simp only [exInputs, List.mem_cons, List.not_mem_nil, or_false] at hi
    rcases hi with rfl | rfl
    · refine ⟨by decide, by simp [GoodProof], ⟨by unfold FMap.Ok; decide, by decide, ?_⟩⟩
      intro p hp
      simp only [List.mem_cons, List.not_mem_nil, or_false] at hp
      subst hp
      exact intConst_good _
    · exact ⟨by decide, trivial, ⟨by unfold FMap.Ok; decide, by decide, by simp⟩⟩
  dataInputs := ⟨by decide, by decide, by decide⟩
  candsCount := by decide
  cands := by
    intro c hc
    simp only [exCands, List.mem_cons, List.not_mem_nil, or_false] at hc
    rcases hc with rfl | rfl
    · refine ⟨by decide, trivial, ⟨by decide, by decide, ?_⟩, by decide, ?_⟩
      · intro t ht
        simp only [List.mem_cons, List.not_mem_nil, or_false] at ht
        rcases ht with rfl | rfl <;> exact ⟨by decide, by decide, by decide⟩
      · intro v hv
        simp only [List.mem_cons, List.not_mem_nil, or_false] at hv
        subst hv
        exact intConst_good _
    · refine ⟨by decide, trivial, ⟨by decide, by decide, ?_⟩, by decide, by simp⟩
      intro t ht
      simp only [List.mem_cons, List.not_mem_nil, or_false] at ht
      subst ht
      exact ⟨by decide, by decide, by decide⟩

/-- A transaction meeting the hypotheses exists. -/
example : ∃ t, GoodTx toySers (fun _ => True) (fun _ => True) t ∧ t.inputs = exInputs ∧ t.cands = exCands := by
  obtain ⟨t, _, h1, h2, _, h3⟩ := C11_constructor_total toySers _ _ toySers_good _ _ _ exParts_good
  exact ⟨t, h1, h2, h3⟩

/-- The second output refers to the second entry of the table. -/
example : distinctTokenIds exCands = [tid 1, tid 2] ∧
    serToken (some (distinctTokenIds exCands)) (tid 2, 9) = .ok [1, 9] := by decide +kernel

/-- The bytes of a transaction with one input, the given token table and one output with 5 of the token at `idx`. -/
def txBytes (table : List Bytes) (idx : Byte) : Bytes :=
  [1] ++ tid 9 ++ [0, 0] ++ [0] ++ [BitVec.ofNat 8 table.length] ++ table.flatten ++ [1] ++ BoxValue.ser 1000000 ++ [7, 3] ++
    [1, idx, 5] ++ [0]

/-- The tokens of the first output. -/
def firstTokens (s : Bytes) : Option (Option (List Token)) :=
  (Tx.parse toySers s).bind fun p => (p.1.cands.head?).map (·.tokens)

/-- C11 fails for tables with repeated ids (which the writer never makes): the reader drops the repetition and the later
indices shift, so that index 1 of the table `[a, a, b]` is read as `b`, and index 2 is refused. -/
theorem C11_repeated_table_shifts :
    firstTokens (txBytes [tid 1, tid 1, tid 2] 1) = some (some [(tid 2, 5)]) ∧
    firstTokens (txBytes [tid 1, tid 1, tid 2] 2) = none ∧
    firstTokens (txBytes [tid 1, tid 2] 1) = some (some [(tid 2, 5)]) := by decide +kernel

/-- A box holding a box holding a box: depth 2 is inhabited by good boxes with boxes in their registers. -/
example : ∃ b : BoxAt (Fin 3) Byte 2, GoodBoxAt (fun _ => true) toyCodec toyTree sumHash (fun _ => True) 2 b ∧
    ∃ b' c, (b : EBox (Fin 3) (EBox (Fin 3) Empty Byte) Byte).regs = [.parsed c] ∧ c.v = Literal.box b' := by
  have htr : Rto (fun _ => True) toyTree.ser toyTree.parse := toySers_good.tree
  have g0 := goodSersAt (fun _ => true) toyCodec toyTree sumHash (fun _ => True) htr NonExp.getU8 0
  have g1 := goodSersAt (fun _ => true) toyCodec toyTree sumHash (fun _ => True) htr NonExp.getU8 1
  let c0 : BoxCand (Fin 3) (BoxAt (Fin 3) Byte 0) Byte :=
    { value := 1000000, tree := 7, tokens := none, regs := [], height := 3 }
  have hc0 : GoodCand (fun _ => true) (GoodBoxAt (fun _ => true) toyCodec toyTree sumHash (fun _ => True) 0)
      (fun _ => True) c0 := ⟨by decide, trivial, trivial, by decide, by simp [c0]⟩
  obtain ⟨b0, e0⟩ := EBox.ofCand_ok _ g0 c0 hc0 (tid 4) 0
  obtain ⟨s1, s2, s3, s4⟩ := EBox.ofCand_spec _ e0
  have gb0 : GoodBoxAt (fun _ => true) toyCodec toyTree sumHash (fun _ => True) 1 b0 :=
    ⟨s1 ▸ hc0, by rw [s2]; decide, s4⟩
  let k : Constant (Fin 3) (BoxAt (Fin 3) Byte 1) := ⟨.box, .box b0⟩
  let c1 : BoxCand (Fin 3) (BoxAt (Fin 3) Byte 1) Byte :=
    { value := 1000000, tree := 7, tokens := none, regs := [.parsed k], height := 3 }
  have hc1 : GoodCand (fun _ => true) (GoodBoxAt (fun _ => true) toyCodec toyTree sumHash (fun _ => True) 1)
      (fun _ => True) c1 := by
    refine ⟨by simp [c1], trivial, trivial, by simp [c1], ?_⟩
    intro v hv
    simp only [c1, List.mem_cons, List.not_mem_nil, or_false] at hv
    subst hv
    refine ⟨?_, ?_, ?_⟩ <;> simp [k, WfType, NoFunc, WellTyped]
    exact gb0
  obtain ⟨b1, e1⟩ := EBox.ofCand_ok _ g1 c1 hc1 (tid 5) 0
  obtain ⟨r1, r2, r3, r4⟩ := EBox.ofCand_spec _ e1
  refine ⟨b1, ⟨r1 ▸ hc1, by rw [r2]; decide, r4⟩, b0, k, ?_, rfl⟩
  exact congrArg BoxCand.regs r1

end Verif
