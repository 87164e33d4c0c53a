import Verif.Props.JsonBox
import Verif.Props.Transaction
import Verif.Props.Signing

set_option linter.unusedSimpArgs false
set_option linter.unusedVariables false

/-!
# C75, C76: JSON form of transactions, context extensions and proofs
-/

namespace Verif
open Spec Json

section
variable {G B T : Type} [DecidableEq G]

/-! ## C75: transactions -/

/-- C75: a signed transaction is read back from its JSON form. -/
theorem C75_roundtrip (E : Sers G B T) (tp : Bytes → Option T) {bwf : B → Prop} {twf twf' : T → Prop}
    (h : GoodSers E bwf twf') (ht : TreeText E tp twf) (ord : List (Text × Json) → List (Text × Json)) (ho : IsOrder ord)
    (t : Tx G B T) (hp : JsonParts E bwf twf t.inputs t.dataInputs t.cands)
    (hm : Tx.new E t.inputs t.dataInputs t.cands = .ok t) : ∃ j, writeTx E ord t = .ok j ∧ readTx E tp j = .ok t :=
  writeTx_rt E tp h ht ho t hp hm

/-- C75: so is an unsigned one. -/
theorem C75_unsigned_roundtrip (E : Sers G B T) (tp : Bytes → Option T) {bwf : B → Prop} {twf twf' : T → Prop}
    (h : GoodSers E bwf twf') (ht : TreeText E tp twf) (ord : List (Text × Json) → List (Text × Json)) (ho : IsOrder ord)
    (u : UnsignedTransaction G B T) (h1 : 1 ≤ u.inputs.length ∧ u.inputs.length ≤ 65535)
    (h2 : ∀ i ∈ u.inputs, i.boxId.length = 32 ∧ JsonExt E bwf i.extension) (h3 : GoodData u.dataInputs)
    (h4 : 1 ≤ u.cands.length ∧ u.cands.length ≤ 65535) (h5 : ∀ c ∈ u.cands, JsonCand E bwf twf c)
    (hm : UnsignedTransaction.new E u.inputs u.dataInputs u.cands = .ok u) :
    ∃ j, writeUnsignedTx E ord u = .ok j ∧ readUnsignedTx E tp j = .ok u :=
  writeUnsignedTx_rt E tp h ht ho u h1 h2 h3 h4 h5 hm

/-- A transaction within the bounds of the binary codec whose proofs are not `Some([])` is within those of JSON. -/
theorem C75_good_tx (E : Sers G B T) {bwf : B → Prop} {twf : T → Prop} (t : Tx G B T) (g : GoodTx E bwf twf t) :
    JsonParts E bwf twf t.inputs t.dataInputs t.cands := by
  refine ⟨g.parts.inputsCount, fun i hi => ?_, g.parts.dataInputs, g.parts.candsCount, fun c hc => ?_⟩
  · obtain ⟨h1, h2, h3⟩ := g.parts.inputs i hi
    refine ⟨h1, ?_, h3.keys, h3.consts⟩
    have : ∀ p, GoodProof p → JsonProof p := by
      intro p hp
      cases p with
      | empty => trivial
      | some b =>
        intro e
        subst e
        simp [GoodProof] at hp
    exact this _ h2
  · obtain ⟨h1, h2, h3, h4⟩ := g.parts.cands c hc
    refine ⟨by omega, h2, ?_, h4.1, fun v hv => ?_⟩
    · have : ∀ tk : Option (List Token), GoodTokens tk → JsonTokens tk := by
        intro tk hk
        cases tk with
        | none => trivial
        | some l => exact ⟨hk.1, hk.2.1, fun t ht => ⟨(hk.2.2 t ht).1, by have := (hk.2.2 t ht).2.2; omega⟩⟩
      exact this _ h3
    · have := h4.2 v hv
      cases v with
      | parsed c => exact this
      | tupleExpr l => exact this
      | invalid x => exact this.elim

/-- C75: a transaction that was read has the declared id, which is the hash of its own signed bytes, and its outputs are labelled
with that id and their positions, whatever the JSON said of them. -/
theorem C75_id (E : Sers G B T) (tp : Bytes → Option T) {bwf : B → Prop} (hp : BoxParsed E.bc bwf) (o : List (Text × Json))
    (t : Tx G B T) (h : readTx E tp (.obj o) = .ok t) :
    t.calcId E = .ok t.txId ∧ (req [kId] o >>= readDigest) = .ok t.txId ∧ t.outputs.length = t.cands.length ∧
      ∀ (i : Nat) (b : EBox G B T), t.outputs[i]? = some b →
        t.cands[i]? = some b.toCand ∧ b.txId = t.txId ∧ b.index.toNat = i ∧ b.calcId E = .ok b.boxId := by
  obtain ⟨h1, h2, h3, _⟩ := readTx_spec E tp hp h
  obtain ⟨_, _, _, hid, ho⟩ := Tx.new_spec E h2
  obtain ⟨g1, g2⟩ := outputsFrom_spec E _ _ _ _ ho
  refine ⟨hid, h3, g1, fun i b hb => ?_⟩
  have hlt : i < t.outputs.length := (List.getElem?_eq_some_iff.1 hb).1
  have hlt' : i < t.cands.length := by omega
  obtain ⟨b', e1, e2⟩ := g2 i t.cands[i] (List.getElem?_eq_getElem hlt')
  rw [hb] at e1
  cases e1
  obtain ⟨s1, s2, s3, s4⟩ := EBox.ofCand_spec E e2
  have hcnt := h1.candsCount.2
  refine ⟨by rw [List.getElem?_eq_getElem hlt', s1], s2, ?_, s4⟩
  rw [s3, BitVec.toNat_ofNat]
  omega

/-- C75: inputs, data inputs and outputs are those of the JSON. -/
theorem C75_content (E : Sers G B T) (tp : Bytes → Option T) {bwf : B → Prop} (hp : BoxParsed E.bc bwf) (o : List (Text × Json))
    (t : Tx G B T) (h : readTx E tp (.obj o) = .ok t) :
    (req [kInputs] o >>= readArr (readInput E)) = .ok t.inputs ∧
    (req [kDataInputs] o >>= readArr readDataInput) = .ok (t.dataInputs.getD []) ∧
    ∃ os, (req [kOutputs] o >>= readArr (readBox E tp)) = .ok os ∧ t.outputs.map EBox.toCand = os.map EBox.toCand := by
  obtain ⟨_, h2, _, h4, h5, os, h6, h7⟩ := readTx_spec E tp hp h
  obtain ⟨_, _, h3, _⟩ := C75_id E tp hp o t h
  obtain ⟨_, _, _, h8⟩ := C75_id E tp hp o t h
  refine ⟨h4, h5, os, h6, ?_⟩
  rw [← h7]
  refine List.ext_getElem (by rw [List.length_map, h3]) fun i hi hi' => ?_
  rw [List.length_map] at hi
  have := (h8 i t.outputs[i] (List.getElem?_eq_getElem hi)).1
  rw [List.getElem?_eq_getElem hi'] at this
  cases e : t.cands[i]
  rw [e] at this
  rw [List.getElem_map]
  exact (Option.some.inj this).symm

/-- C75: a transaction with another declared id is refused. -/
theorem C75_wrong_id (E : Sers G B T) (tp : Bytes → Option T) {bwf : B → Prop} (hp : BoxParsed E.bc bwf) (o : List (Text × Json))
    (d d' : Bytes) (t t' : Tx G B T) (hn : kId ∉ o.map Prod.fst)
    (h : readTx E tp (.obj ((kId, .str (hexEnc d)) :: o)) = .ok t)
    (h' : readTx E tp (.obj ((kId, .str (hexEnc d')) :: o)) = .ok t') : d = d' ∧ t = t' := by
  have hreq : ∀ d, req [kId] ((kId, Json.str (hexEnc d)) :: o) = .ok (.str (hexEnc d)) := by
    intro d
    unfold req
    have : named [kId] ((kId, Json.str (hexEnc d)) :: o) = .str (hexEnc d) :: named [kId] o := by
      unfold named
      rw [List.filter_cons_of_pos (by simp)]
      rfl
    have hnil : named [kId] o = [] := by
      unfold named
      rw [List.map_eq_nil_iff, List.filter_eq_nil_iff]
      intro p hp
      simp only [List.mem_cons, List.not_mem_nil, or_false, decide_eq_true_eq]
      exact fun e => hn (e ▸ List.mem_map_of_mem hp)
    rw [this, hnil]
  have hid : ∀ d (t : Tx G B T), readTx E tp (.obj ((kId, .str (hexEnc d)) :: o)) = .ok t → t.txId = d := by
    intro d t h
    have := (C75_id E tp hp _ t h).2.1
    rw [hreq, Outcome.bind_ok] at this
    unfold readDigest at this
    rw [readHex_hex, Outcome.bind_ok] at this
    split at this
    · cases this; rfl
    · cases this
  have hsame : t = t' := by
    have ex : ∀ (k : Text) (d : Bytes), k ≠ kId → req [k] ((kId, Json.str (hexEnc d)) :: o) = req [k] o := fun k d hk =>
      req_extra (by simpa using fun e => hk e.symm)
    unfold readTx at h h'
    simp only [] at h h'
    rw [ex kInputs _ (by decide), ex kDataInputs _ (by decide), ex kOutputs _ (by decide)] at h h'
    obtain ⟨_, _, h⟩ := json_bind_ok.1 h
    obtain ⟨_, _, h'⟩ := json_bind_ok.1 h'
    obtain ⟨_, a1, h⟩ := json_bind_ok.1 h
    obtain ⟨_, b1, h'⟩ := json_bind_ok.1 h'
    cases a1.symm.trans b1
    obtain ⟨_, a1, h⟩ := json_bind_ok.1 h
    obtain ⟨_, b1, h'⟩ := json_bind_ok.1 h'
    cases a1.symm.trans b1
    obtain ⟨_, a1, h⟩ := json_bind_ok.1 h
    obtain ⟨_, b1, h'⟩ := json_bind_ok.1 h'
    cases a1.symm.trans b1
    obtain ⟨_, a1, h⟩ := json_bind_ok.1 h
    obtain ⟨_, b1, h'⟩ := json_bind_ok.1 h'
    cases a1.symm.trans b1
    split at h
    · cases h
      split at h'
      · cases h'; rfl
      · cases h'
    · cases h
  subst hsame
  exact ⟨(hid d t h).symm.trans (hid d' t h'), rfl⟩

/-- C75, partial: what reading a transaction or an unsigned transaction guarantees of its parts: 1..65535 inputs and outputs, no or
1..65535 data inputs, ids of 32 bytes, proofs that are not `Some([])`, distinct variables.  Missing: bounds of values, see C74. -/
theorem C75_reads_partial (E : Sers G B T) (tp : Bytes → Option T) {bwf : B → Prop} (hp : BoxParsed E.bc bwf) (j : Json) :
    (∀ t, readTx E tp j = .ok t → JsonParts E bwf (fun x => ∃ b, tp b = some x) t.inputs t.dataInputs t.cands ∧
      Tx.new E t.inputs t.dataInputs t.cands = .ok t) ∧
    ∀ u, readUnsignedTx E tp j = .ok u → (1 ≤ u.inputs.length ∧ u.inputs.length ≤ 65535) ∧
      (∀ i ∈ u.inputs, i.boxId.length = 32 ∧ JsonExt E bwf i.extension) ∧ GoodData u.dataInputs ∧
      (1 ≤ u.cands.length ∧ u.cands.length ≤ 65535) ∧
      (∀ c ∈ u.cands, JsonCand E bwf (fun x => ∃ b, tp b = some x) c) ∧
      UnsignedTransaction.new E u.inputs u.dataInputs u.cands = .ok u := by
  refine ⟨fun t h => ?_, fun u h => readUnsignedTx_spec E tp hp h⟩
  cases j with
  | obj o =>
    obtain ⟨h1, h2, _⟩ := readTx_spec E tp hp h
    exact ⟨h1, h2⟩
  | _ => cases h

theorem ofCand_tree_ser (E : Sers G B T) {c : BoxCand G B T} {txId : Bytes} {i : BitVec 16} {b : EBox G B T}
    (h : EBox.ofCand E c txId i = .ok b) : ∃ x, E.tc.ser c.tree = .ok x := by
  obtain ⟨h1, _, _, h4⟩ := EBox.ofCand_spec E h
  unfold EBox.calcId EBox.ser at h4
  obtain ⟨_, g1, _⟩ := Outcome.bind_eq_ok.1 h4
  obtain ⟨tb, g2, _⟩ := Outcome.bind_eq_ok.1 g1
  exact ⟨tb, by rw [← h1]; exact g2⟩

/-- C75: what was read can be written, and is then read as the same transaction. -/
theorem C75_stable (E : Sers G B T) (tp : Bytes → Option T) {bwf : B → Prop} {twf : T → Prop} (h : GoodSers E bwf twf)
    (hp : BoxParsed E.bc bwf) (htp : ∀ x t y, tp x = some t → E.tc.ser t = .ok y → tp y = some t)
    (ord : List (Text × Json) → List (Text × Json)) (ho : IsOrder ord) (j : Json) (t : Tx G B T)
    (hr : readTx E tp j = .ok t) : ∃ j', writeTx E ord t = .ok j' ∧ readTx E tp j' = .ok t := by
  obtain ⟨h1, h2⟩ := (C75_reads_partial E tp hp j).1 t hr
  refine writeTx_rt E tp h (twf := fun t => ∃ y, E.tc.ser t = .ok y ∧ tp y = some t) (fun t ht => ht) ho t
    ⟨h1.inputsCount, h1.inputs, h1.dataInputs, h1.candsCount, fun c hc => ?_⟩ h2
  have hj := h1.cands c hc
  refine ⟨hj.value, ?_, hj.tokens, hj.regs⟩
  obtain ⟨x, hx⟩ := hj.tree
  obtain ⟨_, _, _, _, ho'⟩ := Tx.new_spec E h2
  obtain ⟨_, g2⟩ := outputsFrom_spec E _ _ _ _ ho'
  obtain ⟨k, hk, e⟩ := List.getElem_of_mem hc
  obtain ⟨b, _, e2⟩ := g2 k c (by rw [List.getElem?_eq_getElem hk, e])
  obtain ⟨y, hy⟩ := ofCand_tree_ser E e2
  exact ⟨y, hy, htp x _ y hx hy⟩

/-- C75: the outputs of the JSON count only as candidates: their own ids, transaction ids and indices are not compared with the
transaction. -/
theorem C75_outputs_candidates (E : Sers G B T) (tp : Bytes → Option T) (o o' : List (Text × Json))
    (hk : ∀ k ∈ [kId, kInputs, kDataInputs], req [k] o = req [k] o') (os os' : List (EBox G B T))
    (h : (req [kOutputs] o >>= readArr (readBox E tp)) = .ok os) (h' : (req [kOutputs] o' >>= readArr (readBox E tp)) = .ok os')
    (he : os.map EBox.toCand = os'.map EBox.toCand) : readTx E tp (.obj o) = readTx E tp (.obj o') := by
  unfold readTx
  simp only []
  rw [h, h', hk kId (by simp), hk kInputs (by simp), hk kDataInputs (by simp)]
  simp only [Outcome.bind_ok, he]

/-- C75: the order of the fields and fields with other names do not matter. -/
theorem C75_fields (E : Sers G B T) (tp : Bytes → Option T) (o o' : List (Text × Json)) (h : o.Perm o') (k : Text) (j : Json)
    (hk : k ∉ [kId, kInputs, kDataInputs, kOutputs]) :
    readTx E tp (.obj o) = readTx E tp (.obj o') ∧ readTx E tp (.obj ((k, j) :: o)) = readTx E tp (.obj o) := by
  simp only [List.mem_cons, List.not_mem_nil, or_false, not_or] at hk
  unfold readTx
  simp only []
  constructor
  · rw [req_perm h (names := [kId]), req_perm h (names := [kInputs]), req_perm h (names := [kDataInputs]),
      req_perm h (names := [kOutputs])]
  · rw [req_extra (names := [kId]) (by simp [hk]), req_extra (names := [kInputs]) (by simp [hk]),
      req_extra (names := [kDataInputs]) (by simp [hk]), req_extra (names := [kOutputs]) (by simp [hk])]

/-! ## C76: context extensions and proofs -/

/-- C76: a context extension is read back with its entries in the same order. -/
theorem C76_roundtrip (E : Sers G B T) {bwf : B → Prop} {twf : T → Prop} (h : GoodSers E bwf twf) (m : Extension G B)
    (hm : JsonExt E bwf m) : ∃ j, writeExt E m = .ok j ∧ readExt E j = .ok m :=
  writeExt_rt E h m hm

/-- C76: a proof with its extension is read back, unless the proof is `Some([])`. -/
theorem C76_proof_roundtrip (E : Sers G B T) {bwf : B → Prop} {twf : T → Prop} (h : GoodSers E bwf twf)
    (p : ProverResult G B) (h1 : JsonProof p.proof) (h2 : JsonExt E bwf p.extension) :
    ∃ j, writeProverResult E p = .ok j ∧ readProverResult E j = .ok p :=
  writeProverResult_rt E h p h1 h2

/-- C76: what is read: distinct variables with serializable constants, and no proof `Some([])`. -/
theorem C76_reads (E : Sers G B T) {bwf : B → Prop} (hp : BoxParsed E.bc bwf) (j : Json) :
    (∀ m, readExt E j = .ok m → JsonExt E bwf m) ∧
    ∀ p, readProverResult E j = .ok p → JsonProof p.proof ∧ JsonExt E bwf p.extension :=
  ⟨fun m h => readExt_spec E hp h, fun p h => readProverResult_spec E hp h⟩

theorem parseUint_go_inv {bound : Nat} : ∀ (ds : List Char) (acc n : Nat), parseUint.go bound acc ds = some n →
    AllDigits ds ∧ n = ds.foldl (fun a c => 10 * a + (c.toNat - 48)) acc
  | [], acc, n, h => by
    simp only [parseUint.go, Option.some.injEq] at h
    exact ⟨fun c hc => absurd hc (by simp), h.symm⟩
  | c :: cs, acc, n, h => by
    unfold parseUint.go at h
    split at h
    · cases h
    · rename_i d hd
      split at h
      · obtain ⟨h1, h2⟩ := parseUint_go_inv cs _ n h
        unfold digitVal at hd
        split at hd
        · rename_i hc
          cases hd
          refine ⟨fun x hx => ?_, ?_⟩
          · rcases List.mem_cons.1 hx with rfl | hx
            · exact hc
            · exact h1 x hx
          · rw [List.foldl_cons, h2, Nat.mul_comm]
        · cases hd
      · cases h

/-- C76: which names of an extension stand for the variable `n`: a decimal number, with any leading zeros and perhaps a `+`. -/
theorem C76_names (s : Text) (n : Nat) :
    parseUint 256 s = some n ↔ n < 256 ∧ ∃ ds, (s = ds ∨ s = '+' :: ds) ∧ ds ≠ [] ∧
      (∀ c ∈ ds, '0' ≤ c ∧ c ≤ '9') ∧ digitsValue ds = n := by
  have hdig : ∀ ds : List Char, AllDigits ds ↔ ∀ c ∈ ds, '0' ≤ c ∧ c ≤ '9' := by
    intro ds
    exact forall₂_congr fun c hc => Iff.rfl
  constructor
  · intro h
    refine ⟨parseUint_lt (by decide) h, ?_⟩
    unfold parseUint at h
    split at h
    · cases h
    · rename_i c cs
      simp only [] at h
      have hor : c :: cs = (if c = '+' then cs else c :: cs) ∨ c :: cs = '+' :: (if c = '+' then cs else c :: cs) := by
        by_cases hc : c = '+'
        · rw [if_pos hc, hc]; exact Or.inr rfl
        · rw [if_neg hc]; exact Or.inl rfl
      generalize (if c = '+' then cs else c :: cs) = ds at h hor
      split at h
      · cases h
      · rename_i hne
        obtain ⟨h1, h2⟩ := parseUint_go_inv _ _ _ h
        exact ⟨ds, hor, hne, (hdig _).1 h1, h2.symm⟩
  · rintro ⟨hn, ds, hs, hne, hd, rfl⟩
    have hd' := (hdig ds).2 hd
    unfold digitsValue at hn ⊢
    have hgo := parseUint_go_eq 256 ds 0 hd' hn
    rcases hs with rfl | rfl
    · cases s with
      | nil => exact absurd rfl hne
      | cons c cs =>
        unfold parseUint
        have hc := digit_ne_plus (hd' c (List.mem_cons_self ..))
        simp only [if_neg hc]
        rw [if_neg (by simp), hgo]
    · unfold parseUint
      simp only [if_true]
      rw [if_neg hne, hgo]

end

/-! ## Violations -/

/-- C76, violation: two entries of an extension with different names for one variable are merged, the last one wins. -/
theorem C76_names_violate :
    readExt toySers (.obj [(['1'], .str ['0', '4', '0', '2']), (['0', '1'], .str ['0', '4', '0', '4'])]) =
      .ok [(1, intConst 2)] := by with_unfolding_all rfl

/-- C76, violation: bytes behind a constant are ignored. -/
theorem C76_trailing_violates :
    readExt toySers (.obj [(['1'], .str ['0', '4', '0', '2', 'f', 'f'])]) = .ok [(1, intConst 1)] := by with_unfolding_all rfl

/-- C76, violation: the proof `Some([])` becomes `Empty`. -/
theorem C76_empty_proof_violates : ∃ j, writeProverResult toySers ⟨.some [], []⟩ = .ok j ∧
    readProverResult toySers j = .ok ⟨.empty, []⟩ := ⟨_, rfl, rfl⟩

/-- C75, violation: a transaction is accepted whose JSON gives its output a different transaction id, index and box id than the
transaction that is read. -/
theorem C75_output_ids_violate : ∃ o t b b', readTx toySers toyTp (.obj o) = .ok t ∧ t.outputs = [b] ∧
    (req [kOutputs] o >>= readArr (readBox toySers toyTp)) = .ok [b'] ∧ b'.txId = zeros32 ∧ b'.index = 1 ∧ b.index = 0 ∧
    b.txId = t.txId := by
  have hg : GoodParts toySers.utf8 (fun _ => True) (fun _ => True) [⟨zeros32, ⟨.empty, []⟩⟩] none
      [(jsonExampleBox.toCand : BoxCand (Fin 3) Empty Byte)] := by
    refine ⟨by decide, ?_, trivial, by decide, ?_⟩
    · intro i hi
      rw [List.mem_singleton.1 hi]
      exact ⟨by decide, trivial, by unfold FMap.Ok; decide, by decide, by intro p hp; cases hp⟩
    · intro c hc
      rw [List.mem_singleton.1 hc]
      refine ⟨by decide, trivial, trivial, by decide, ?_⟩
      intro v hv
      simp only [jsonExampleBox, EBox.toCand, List.mem_cons, List.not_mem_nil, or_false] at hv
      rcases hv with rfl | rfl <;> exact intConst_good _
  obtain ⟨t, ht⟩ := Tx.new_ok toySers toySers_good hg
  obtain ⟨_, _, s3, s4, s5⟩ := Tx.new_spec toySers ht
  have hid := calcTxId_len toySers s4
  obtain ⟨b, hb, s6⟩ := Outcome.bind_eq_ok.1 s5
  obtain ⟨_, k2, k3, _⟩ := EBox.ofCand_spec toySers hb
  obtain ⟨l, hl, s7⟩ := Outcome.bind_eq_ok.1 s6
  cases hl
  have s8 : [b] = t.outputs := Outcome.ok.inj s7
  refine ⟨[(kId, .str (hexEnc t.txId)),
    (kInputs, .arr [.obj [(kBoxId, .str (hexEnc zeros32)), (kSpendingProof, .str [])]]), (kDataInputs, .arr []),
    (kOutputs, .arr [.obj jsonExample])], t, b, jsonExampleBox, ?_, s8.symm, ?_, rfl, rfl, ?_, k2⟩
  · unfold readTx
    simp only []
    generalize ho : [(kId, Json.str (hexEnc t.txId)),
      (kInputs, .arr [.obj [(kBoxId, .str (hexEnc zeros32)), (kSpendingProof, .str [])]]), (kDataInputs, .arr []),
      (kOutputs, .arr [.obj jsonExample])] = o
    rw [show req [kId] o = .ok (.str (hexEnc t.txId)) from by rw [← ho]; rfl,
      show req [kInputs] o = .ok (.arr [.obj [(kBoxId, .str (hexEnc zeros32)), (kSpendingProof, .str [])]]) from by rw [← ho]; rfl,
      show req [kDataInputs] o = .ok (.arr []) from by rw [← ho]; rfl,
      show req [kOutputs] o = .ok (.arr [.obj jsonExample]) from by rw [← ho]; rfl]
    have hi : readInput toySers (.obj [(kBoxId, .str (hexEnc zeros32)), (kSpendingProof, .str [])]) =
        .ok ⟨zeros32, ⟨.empty, []⟩⟩ := by
      unfold readInput
      simp only []
      rw [show (req [kBoxId, kId] [(kBoxId, Json.str (hexEnc zeros32)), (kSpendingProof, Json.str [])]) =
          .ok (.str (hexEnc zeros32)) from rfl,
        show (req [kSpendingProof] [(kBoxId, Json.str (hexEnc zeros32)), (kSpendingProof, Json.str [])]) = .ok (.str []) from rfl]
      rw [Outcome.bind_ok, readDigest_hex (by decide)]
      rfl
    rw [Outcome.bind_ok, readDigest_hex hid, Outcome.bind_ok, Outcome.bind_ok]
    simp only [readArr, readArr.go, hi, jsonExample_read, Outcome.bind_ok, Outcome.pure_eq, List.map_cons, List.map_nil]
    unfold Tx.newFromVec
    rw [ioVec_ok hg.inputsCount, show optIoVec [] = some none from rfl, ioVec_ok hg.candsCount]
    simp only [ofOpt, Outcome.bind_ok, ht, if_true]
  · rw [show req [kOutputs] [(kId, Json.str (hexEnc t.txId)),
      (kInputs, .arr [.obj [(kBoxId, .str (hexEnc zeros32)), (kSpendingProof, .str [])]]), (kDataInputs, .arr []),
      (kOutputs, .arr [.obj jsonExample])] = .ok (.arr [.obj jsonExample]) from rfl]
    simp only [readArr, readArr.go, jsonExample_read, Outcome.bind_ok, Outcome.pure_eq]
  · rw [k3]; rfl

/-! ## Examples -/

/-- The transaction of the examples of C11 is one of JSON. -/
example : ∃ t, GoodTx toySers (fun _ => True) (fun _ => True) t ∧ t.inputs = exInputs ∧
    JsonParts toySers (fun _ => True) (fun _ => True) t.inputs t.dataInputs t.cands := by
  obtain ⟨t, _, h1, h2, _, h3⟩ := C11_constructor_total toySers _ _ toySers_good _ _ _ exParts_good
  exact ⟨t, h1, h2, C75_good_tx toySers t h1⟩

example : JsonExt toySers (fun _ => True) [(7, intConst 1), (0, intConst 2)] where
  keys := by unfold FMap.Ok; decide
  consts := by
    intro p hp
    simp only [List.mem_cons, List.not_mem_nil, or_false] at hp
    rcases hp with rfl | rfl <;> exact intConst_good _

example : parseUint 256 ['+', '0', '0', '7'] = some 7 ∧ parseUint 256 ['2', '5', '6'] = none ∧ parseUint 256 ['+'] = none := by
  decide +kernel

end Verif
