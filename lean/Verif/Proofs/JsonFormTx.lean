import Verif.Proofs.JsonForm

set_option linter.unusedSimpArgs false
set_option linter.unusedVariables false

/-!
# Boxes and transactions: what is written has the form, and what has the form is read
-/

namespace Verif
open Spec Json

section
variable {G B T : Type} [DecidableEq G]

/-! ## Written -/

theorem writeToken_form (t : Token) : writeToken t = tokenForm asNumber t := by
  unfold writeToken tokenForm
  rw [strHex_eq]
  simp only [fields, List.map_cons, List.map_nil]
  rfl

theorem writeTokenEip12_form (t : Token) : writeTokenEip12 t = tokenForm asText t := by
  unfold writeTokenEip12 tokenForm writeTextAmount asText
  rw [strHex_eq, decimal_eq]
  simp only [fields, List.map_cons, List.map_nil]
  rfl

/-- The fields of a candidate. -/
def candObj (amt : Nat → Json) (c : BoxCand G B T) (tree : Bytes) (regs : List (Text × Json)) : List (Text × Json) :=
  [(kValue, amt c.value), (kErgoTree, hex tree), (kAssets, .arr ((c.tokens.getD []).map (tokenForm amt))), (kRegisters, .obj regs),
    (kHeight, asNumber c.height.toNat)]

theorem writeCandFields_form (E : Sers G B T) {ord : List (Text × Json) → List (Text × Json)} (ho : IsOrder ord) {c : BoxCand G B T}
    {o : List (Text × Json)} (h : writeCandFields E ord c = .ok o) :
    ∃ tree regs, E.tc.ser c.tree = .ok tree ∧ RegForm E c.regs regs ∧ o = candObj asNumber c tree regs := by
  unfold writeCandFields at h
  obtain ⟨tree, h1, h⟩ := json_bind_ok.1 h
  obtain ⟨regs, h2, h⟩ := json_bind_ok.1 h
  cases h
  obtain ⟨r, rfl, hr⟩ := writeRegs_form E ho h2
  refine ⟨tree, r, h1, hr, ?_⟩
  rw [strHex_eq, show writeToken = tokenForm asNumber from funext writeToken_form]
  rfl

theorem writeCandFieldsEip12_form (E : Sers G B T) {ord : List (Text × Json) → List (Text × Json)} (ho : IsOrder ord)
    {c : BoxCand G B T} {o : List (Text × Json)} (h : writeCandFieldsEip12 E ord c = .ok o) :
    ∃ tree regs, E.tc.ser c.tree = .ok tree ∧ RegForm E c.regs regs ∧ o = candObj asText c tree regs := by
  unfold writeCandFieldsEip12 at h
  obtain ⟨tree, h1, h⟩ := json_bind_ok.1 h
  obtain ⟨regs, h2, h⟩ := json_bind_ok.1 h
  cases h
  obtain ⟨r, rfl, hr⟩ := writeRegs_form E ho h2
  refine ⟨tree, r, h1, hr, ?_⟩
  rw [strHex_eq, show writeTokenEip12 = tokenForm asText from funext writeTokenEip12_form, writeTextAmount, decimal_eq]
  rfl

omit [DecidableEq G] in
theorem candObj_fields (amt : Nat → Json) (c : BoxCand G B T) (tree : Bytes) (regs : List (Text × Json)) :
    fields [("value", amt c.value), ("ergoTree", hex tree), ("assets", .arr ((c.tokens.getD []).map (tokenForm amt))),
      ("additionalRegisters", .obj regs), ("creationHeight", asNumber c.height.toNat)] = .obj (candObj amt c tree regs) := by
  simp only [fields, List.map_cons, List.map_nil]
  rfl

omit [DecidableEq G] in
theorem boxObj_fields (amt : Nat → Json) (b : EBox G B T) (tree : Bytes) (regs : List (Text × Json)) :
    fields [("boxId", hex b.boxId), ("value", amt b.value), ("ergoTree", hex tree),
      ("assets", .arr ((b.tokens.getD []).map (tokenForm amt))), ("additionalRegisters", .obj regs),
      ("creationHeight", asNumber b.height.toNat), ("transactionId", hex b.txId), ("index", asNumber b.index.toNat)] =
    .obj ((kBoxId, hex b.boxId) :: candObj amt b.toCand tree regs ++ [(kTransactionId, hex b.txId), (kIndex, asNumber b.index.toNat)]) := by
  simp only [fields, List.map_cons, List.map_nil]
  rfl

theorem writeCand_form (E : Sers G B T) {ord : List (Text × Json) → List (Text × Json)} (ho : IsOrder ord) {c : BoxCand G B T} {j : Json}
    (h : writeCand E ord c = .ok j) : CandForm asNumber E c j := by
  unfold writeCand at h
  obtain ⟨o, h1, h⟩ := json_bind_ok.1 h
  cases h
  obtain ⟨tree, regs, e1, e2, rfl⟩ := writeCandFields_form E ho h1
  exact ⟨tree, regs, e1, e2, (candObj_fields asNumber c tree regs).symm⟩

theorem writeCandEip12_form (E : Sers G B T) {ord : List (Text × Json) → List (Text × Json)} (ho : IsOrder ord) {c : BoxCand G B T}
    {j : Json} (h : writeCandEip12 E ord c = .ok j) : CandForm asText E c j := by
  unfold writeCandEip12 at h
  obtain ⟨o, h1, h⟩ := json_bind_ok.1 h
  cases h
  obtain ⟨tree, regs, e1, e2, rfl⟩ := writeCandFieldsEip12_form E ho h1
  exact ⟨tree, regs, e1, e2, (candObj_fields asText c tree regs).symm⟩

theorem writeBox_form (E : Sers G B T) {ord : List (Text × Json) → List (Text × Json)} (ho : IsOrder ord) {b : EBox G B T} {j : Json}
    (h : writeBox E ord b = .ok j) : BoxForm asNumber E b j := by
  unfold writeBox at h
  obtain ⟨o, h1, h⟩ := json_bind_ok.1 h
  cases h
  obtain ⟨tree, regs, e1, e2, rfl⟩ := writeCandFields_form E ho h1
  refine ⟨tree, regs, e1, e2, ?_⟩
  rw [boxObj_fields, strHex_eq, strHex_eq]
  rfl

theorem writeBoxEip12_form (E : Sers G B T) {ord : List (Text × Json) → List (Text × Json)} (ho : IsOrder ord) {b : EBox G B T} {j : Json}
    (h : writeBoxEip12 E ord b = .ok j) : BoxForm asText E b j := by
  unfold writeBoxEip12 at h
  obtain ⟨o, h1, h⟩ := json_bind_ok.1 h
  cases h
  obtain ⟨tree, regs, e1, e2, rfl⟩ := writeCandFieldsEip12_form E ho h1
  refine ⟨tree, regs, e1, e2, ?_⟩
  rw [boxObj_fields, strHex_eq, strHex_eq]
  rfl

theorem writeExtEntries_form (E : Sers G B T) : ∀ (m : Extension G B) (o : List (Text × Json)), writeExtEntries E m = .ok o ↔
    List.Forall₂ (fun p e => ∃ b, p.2.ser E.pc E.bc = .ok b ∧ e = ((toString p.1.toNat).toList, hex b)) m o
  | [], o => by
    rw [writeExtEntries]
    cases o <;> simp
  | p :: m, o => by
    rw [writeExtEntries]
    constructor
    · intro h
      obtain ⟨b, h1, h⟩ := json_bind_ok.1 h
      obtain ⟨r, h2, h⟩ := json_bind_ok.1 h
      cases h
      refine List.Forall₂.cons ⟨b, h1, ?_⟩ ((writeExtEntries_form E m r).1 h2)
      rw [strHex_eq, decimal_eq]
    · intro h
      cases h with
      | cons h1 h2 =>
        obtain ⟨b, h1, rfl⟩ := h1
        rw [h1, Outcome.bind_ok, (writeExtEntries_form E m _).2 h2, Outcome.bind_ok, strHex_eq, decimal_eq]
        rfl

theorem writeExt_form (E : Sers G B T) (m : Extension G B) (j : Json) : writeExt E m = .ok j ↔ ExtForm E m j := by
  unfold writeExt ExtForm
  rw [json_bind_ok]
  constructor
  · rintro ⟨o, h1, h2⟩
    cases h2
    exact ⟨o, rfl, (writeExtEntries_form E m o).1 h1⟩
  · rintro ⟨o, rfl, h⟩
    exact ⟨o, (writeExtEntries_form E m o).2 h, rfl⟩

theorem writeProver_form (E : Sers G B T) (p : ProverResult G B) (j : Json) : writeProverResult E p = .ok j ↔
    ∃ e, ExtForm E p.extension e ∧ j = fields [("proofBytes", hex p.proof.toBytes), ("extension", e)] := by
  unfold writeProverResult
  rw [json_bind_ok]
  refine exists_congr fun e => ?_
  rw [writeExt_form]
  refine and_congr_right fun _ => ?_
  rw [strHex_eq]
  simp only [fields, List.map_cons, List.map_nil, Outcome.pure_eq, Outcome.ok.injEq]
  exact ⟨fun h => h.symm, fun h => h.symm⟩

theorem writeInput_form (E : Sers G B T) (i : Input G B) (j : Json) : writeInput E i = .ok j ↔ InputForm E i j := by
  unfold writeInput InputForm
  rw [json_bind_ok]
  constructor
  · rintro ⟨p, h1, h2⟩
    cases h2
    obtain ⟨e, he, rfl⟩ := (writeProver_form E _ _).1 h1
    refine ⟨e, he, ?_⟩
    rw [strHex_eq]
    conv_rhs => rw [fields]
    simp only [List.map_cons, List.map_nil]
    rfl
  · rintro ⟨e, he, rfl⟩
    refine ⟨_, (writeProver_form E _ _).2 ⟨e, he, rfl⟩, ?_⟩
    rw [strHex_eq]
    conv_rhs => rw [fields]
    simp only [List.map_cons, List.map_nil]
    rfl

theorem writeUnsignedInput_form (E : Sers G B T) (i : UnsignedInput G B) (j : Json) :
    writeUnsignedInput E i = .ok j ↔ UnsignedInputForm E i j := by
  unfold writeUnsignedInput UnsignedInputForm
  rw [json_bind_ok]
  refine exists_congr fun e => ?_
  rw [writeExt_form]
  refine and_congr_right fun _ => ?_
  rw [strHex_eq]
  simp only [fields, List.map_cons, List.map_nil, Outcome.pure_eq, Outcome.ok.injEq]
  exact ⟨fun h => h.symm, fun h => h.symm⟩

omit [DecidableEq G] in
theorem writeDataInput_form (d : Bytes) : writeDataInput d = fields [("boxId", hex d)] := by
  unfold writeDataInput
  rw [strHex_eq]
  simp only [fields, List.map_cons, List.map_nil]
  rfl

omit [DecidableEq G] in
theorem dataForm_eq (d : Option (List Bytes)) : dataForm d = .arr ((d.getD []).map writeDataInput) := by
  unfold dataForm
  rw [show writeDataInput = fun b => fields [("boxId", hex b)] from funext writeDataInput_form]

omit [DecidableEq G] in
theorem txObj_fields (id : Bytes) (is os : List Json) (d : Option (List Bytes)) :
    fields [("id", hex id), ("inputs", .arr is), ("dataInputs", dataForm d), ("outputs", .arr os)] =
    .obj [(kId, .str (hexEnc id)), (kInputs, .arr is), (kDataInputs, .arr ((d.getD []).map writeDataInput)), (kOutputs, .arr os)] := by
  rw [strHex_eq, dataForm_eq]
  simp only [fields, List.map_cons, List.map_nil]
  rfl

omit [DecidableEq G] in
theorem unsignedObj_fields (is os : List Json) (d : Option (List Bytes)) :
    fields [("inputs", .arr is), ("dataInputs", dataForm d), ("outputs", .arr os)] =
    .obj [(kInputs, .arr is), (kDataInputs, .arr ((d.getD []).map writeDataInput)), (kOutputs, .arr os)] := by
  rw [dataForm_eq]
  simp only [fields, List.map_cons, List.map_nil]
  rfl

theorem writeTx_form (E : Sers G B T) {ord : List (Text × Json) → List (Text × Json)} (ho : IsOrder ord) {t : Tx G B T} {j : Json}
    (h : writeTx E ord t = .ok j) : TxForm asNumber E t j := by
  unfold writeTx at h
  obtain ⟨is, h1, h⟩ := json_bind_ok.1 h
  obtain ⟨os, h2, h⟩ := json_bind_ok.1 h
  cases h
  exact ⟨is, os, (writeMany_iff.1 h1).imp fun i j => (writeInput_form E i j).1, (writeMany_iff.1 h2).imp fun b j => writeBox_form E ho,
    (txObj_fields t.txId is os t.dataInputs).symm⟩

theorem writeTxEip12_form (E : Sers G B T) {ord : List (Text × Json) → List (Text × Json)} (ho : IsOrder ord) {t : Tx G B T} {j : Json}
    (h : writeTxEip12 E ord t = .ok j) : TxForm asText E t j := by
  unfold writeTxEip12 at h
  obtain ⟨is, h1, h⟩ := json_bind_ok.1 h
  obtain ⟨os, h2, h⟩ := json_bind_ok.1 h
  cases h
  exact ⟨is, os, (writeMany_iff.1 h1).imp fun i j => (writeInput_form E i j).1,
    (writeMany_iff.1 h2).imp fun b j => writeBoxEip12_form E ho, (txObj_fields t.txId is os t.dataInputs).symm⟩

theorem writeUnsignedTx_form (E : Sers G B T) {ord : List (Text × Json) → List (Text × Json)} (ho : IsOrder ord)
    {u : UnsignedTransaction G B T} {j : Json} (h : writeUnsignedTx E ord u = .ok j) : UnsignedTxForm asNumber E u j := by
  unfold writeUnsignedTx at h
  obtain ⟨is, h1, h⟩ := json_bind_ok.1 h
  obtain ⟨os, h2, h⟩ := json_bind_ok.1 h
  cases h
  exact ⟨is, os, (writeMany_iff.1 h1).imp fun i j => (writeUnsignedInput_form E i j).1,
    (writeMany_iff.1 h2).imp fun b j => writeCand_form E ho, (unsignedObj_fields is os u.dataInputs).symm⟩

theorem writeUnsignedTxEip12_form (E : Sers G B T) {ord : List (Text × Json) → List (Text × Json)} (ho : IsOrder ord)
    {u : UnsignedTransaction G B T} {j : Json} (h : writeUnsignedTxEip12 E ord u = .ok j) : UnsignedTxForm asText E u j := by
  unfold writeUnsignedTxEip12 at h
  obtain ⟨is, h1, h⟩ := json_bind_ok.1 h
  obtain ⟨os, h2, h⟩ := json_bind_ok.1 h
  cases h
  exact ⟨is, os, (writeMany_iff.1 h1).imp fun i j => (writeUnsignedInput_form E i j).1,
    (writeMany_iff.1 h2).imp fun b j => writeCandEip12_form E ho, (unsignedObj_fields is os u.dataInputs).symm⟩

/-! ## Read -/

theorem readCandFields_form (E : Sers G B T) (tp : Bytes → Option T) {bwf : B → Prop} {twf twf' : T → Prop} (h : GoodSers E bwf twf')
    (ht : TreeText E tp twf) {amt : Nat → Json} (ha : AmountForm amt) {c : BoxCand G B T} (hc : JsonCand E bwf twf c) {tree : Bytes}
    {regs o : List (Text × Json)} (h1 : E.tc.ser c.tree = .ok tree) (h2 : RegForm E c.regs regs)
    (r1 : req [kValue] o = .ok (amt c.value)) (r2 : req [kErgoTree] o = .ok (hex tree))
    (r3 : req [kAssets] o = .ok (.arr ((c.tokens.getD []).map (tokenForm amt)))) (r4 : req [kRegisters] o = .ok (.obj regs))
    (r5 : req [kHeight] o = .ok (asNumber c.height.toNat)) : readCandFields E tp o = .ok c := by
  refine readCandFields_of E tp ?_ ?_ ?_ ?_ ?_
  · rw [r1, Outcome.bind_ok]; exact ha _ hc.value
  · rw [r2, Outcome.bind_ok]
    obtain ⟨tree', e1, e2⟩ := ht c.tree hc.tree
    rw [h1] at e1
    cases e1
    unfold readTree
    rw [← strHex_eq, readHex_hex, Outcome.bind_ok, e2]
    rfl
  · rw [r3, Outcome.bind_ok]; exact readTokens_form ha hc.tokens
  · rw [r4, Outcome.bind_ok]; exact readRegs_form E h hc.regs.2 h2
  · rw [r5, Outcome.bind_ok]; exact readUint_nat c.height.isLt

theorem readCand_form (E : Sers G B T) (tp : Bytes → Option T) {bwf : B → Prop} {twf twf' : T → Prop} (h : GoodSers E bwf twf')
    (ht : TreeText E tp twf) {amt : Nat → Json} (ha : AmountForm amt) {c : BoxCand G B T} (hc : JsonCand E bwf twf c) {j : Json}
    (hf : CandForm amt E c j) : readCand E tp j = .ok c := by
  obtain ⟨tree, regs, h1, h2, rfl⟩ := hf
  rw [candObj_fields]
  exact readCandFields_form E tp h ht ha hc h1 h2 rfl rfl rfl rfl rfl

theorem readBox_form (E : Sers G B T) (tp : Bytes → Option T) {bwf : B → Prop} {twf twf' : T → Prop} (h : GoodSers E bwf twf')
    (ht : TreeText E tp twf) {amt : Nat → Json} (ha : AmountForm amt) {b : EBox G B T} (hb : JsonBox E bwf twf b) {j : Json}
    (hf : BoxForm amt E b j) : readBox E tp j = .ok b := by
  obtain ⟨tree, regs, h1, h2, rfl⟩ := hf
  rw [boxObj_fields]
  refine (readBox_iff E tp).2 ⟨Or.inr ⟨hex b.boxId, rfl, ?_⟩, ?_, ?_, ?_, hb.id⟩
  · rw [← strHex_eq]; exact readDigest_hex (calcId_len E hb.id)
  · exact readCandFields_form E tp h ht ha hb.cand h1 h2 rfl rfl rfl rfl rfl
  · show readDigest (hex b.txId) = _
    rw [← strHex_eq]; exact readDigest_hex hb.txId
  · exact readUint_nat b.index.isLt

theorem readInput_form (E : Sers G B T) {bwf : B → Prop} {twf : T → Prop} (h : GoodSers E bwf twf) {i : Input G B}
    (h1 : i.boxId.length = 32) (h2 : JsonProof i.proof.proof) (h3 : JsonExt E bwf i.proof.extension) {j : Json} (hf : InputForm E i j) :
    readInput E j = .ok i := by
  obtain ⟨j', e1, e2⟩ := writeInput_rt E h i h1 h2 h3
  rw [(writeInput_form E i j).2 hf] at e1
  cases e1
  exact e2

theorem readUnsignedInput_form (E : Sers G B T) {bwf : B → Prop} {twf : T → Prop} (h : GoodSers E bwf twf) {i : UnsignedInput G B}
    (h1 : i.boxId.length = 32) (h2 : JsonExt E bwf i.extension) {j : Json} (hf : UnsignedInputForm E i j) :
    readUnsignedInput E j = .ok i := by
  obtain ⟨j', e1, e2⟩ := writeUnsignedInput_rt E h i h1 h2
  rw [(writeUnsignedInput_form E i j).2 hf] at e1
  cases e1
  exact e2

omit [DecidableEq G] in
theorem readArr_form {α : Type} {f : Json → Outcome α} {P : α → Json → Prop} {l : List α} {js : List Json} (hf : List.Forall₂ P l js)
    (h : ∀ a ∈ l, ∀ j, P a j → f j = .ok a) : readArr f (.arr js) = .ok l := by
  show readArr.go f js = .ok l
  rw [readArr_go_iff]
  induction hf with
  | nil => exact List.Forall₂.nil
  | cons h1 _ ih => exact List.Forall₂.cons (h _ (by simp) _ h1) (ih fun a ha => h a (by simp [ha]))

theorem readTx_form (E : Sers G B T) (tp : Bytes → Option T) {bwf : B → Prop} {twf twf' : T → Prop} (h : GoodSers E bwf twf')
    (ht : TreeText E tp twf) {amt : Nat → Json} (ha : AmountForm amt) (t : Tx G B T)
    (hp : JsonParts E bwf twf t.inputs t.dataInputs t.cands) (hm : Tx.new E t.inputs t.dataInputs t.cands = .ok t) {j : Json}
    (hf : TxForm amt E t j) : readTx E tp j = .ok t := by
  obtain ⟨_, _, _, s4, s5⟩ := Tx.new_spec E hm
  have hid := calcTxId_len E s4
  obtain ⟨g1, g2⟩ := outputsFrom_json E hid t.cands 0 t.outputs s5 hp.cands
  obtain ⟨is, os, f1, f2, rfl⟩ := hf
  have e2 := readArr_form (f := readInput E) f1 (fun i hi j hj => readInput_form E h (hp.inputs i hi).1 (hp.inputs i hi).2.1
    (hp.inputs i hi).2.2 hj)
  have e4 := readArr_form (f := readBox E tp) f2 (fun b hb j hj => readBox_form E tp h ht ha (g1 b hb) hj)
  rw [txObj_fields]
  unfold readTx
  simp only []
  generalize ho : [(kId, Json.str (hexEnc t.txId)), (kInputs, .arr is),
    (kDataInputs, .arr ((t.dataInputs.getD []).map writeDataInput)), (kOutputs, .arr os)] = o
  rw [show req [kId] o = .ok (.str (hexEnc t.txId)) from by rw [← ho]; rfl,
    show req [kInputs] o = .ok (.arr is) from by rw [← ho]; rfl,
    show req [kDataInputs] o = .ok (.arr ((t.dataInputs.getD []).map writeDataInput)) from by rw [← ho]; rfl,
    show req [kOutputs] o = .ok (.arr os) from by rw [← ho]; rfl]
  rw [Outcome.bind_ok, readDigest_hex hid, Outcome.bind_ok, Outcome.bind_ok, e2, Outcome.bind_ok, Outcome.bind_ok,
    readDataInputs_write hp.dataInputs, Outcome.bind_ok, Outcome.bind_ok, e4, Outcome.bind_ok]
  unfold Tx.newFromVec
  rw [g2, ioVec_ok hp.inputsCount, optIoVec_ok hp.dataInputs, ioVec_ok hp.candsCount]
  simp only [ofOpt, Outcome.bind_ok, hm, if_true]

theorem readUnsignedTx_form (E : Sers G B T) (tp : Bytes → Option T) {bwf : B → Prop} {twf twf' : T → Prop} (h : GoodSers E bwf twf')
    (ht : TreeText E tp twf) {amt : Nat → Json} (ha : AmountForm amt) (u : UnsignedTransaction G B T)
    (h1 : 1 ≤ u.inputs.length ∧ u.inputs.length ≤ 65535) (h2 : ∀ i ∈ u.inputs, i.boxId.length = 32 ∧ JsonExt E bwf i.extension)
    (h3 : GoodData u.dataInputs) (h4 : 1 ≤ u.cands.length ∧ u.cands.length ≤ 65535) (h5 : ∀ c ∈ u.cands, JsonCand E bwf twf c)
    (hm : UnsignedTransaction.new E u.inputs u.dataInputs u.cands = .ok u) {j : Json} (hf : UnsignedTxForm amt E u j) :
    readUnsignedTx E tp j = .ok u := by
  obtain ⟨is, os, f1, f2, rfl⟩ := hf
  have e2 := readArr_form (f := readUnsignedInput E) f1 (fun i hi j hj => readUnsignedInput_form E h (h2 i hi).1 (h2 i hi).2 hj)
  have e4 := readArr_form (f := readCand E tp) f2 (fun c hc j hj => readCand_form E tp h ht ha (h5 c hc) hj)
  rw [unsignedObj_fields]
  unfold readUnsignedTx
  simp only []
  generalize ho : [(kInputs, Json.arr is),
    (kDataInputs, .arr ((u.dataInputs.getD []).map writeDataInput)), (kOutputs, .arr os)] = o
  rw [show req [kInputs] o = .ok (.arr is) from by rw [← ho]; rfl,
    show req [kDataInputs] o = .ok (.arr ((u.dataInputs.getD []).map writeDataInput)) from by rw [← ho]; rfl,
    show req [kOutputs] o = .ok (.arr os) from by rw [← ho]; rfl]
  rw [Outcome.bind_ok, e2, Outcome.bind_ok, Outcome.bind_ok,
    readDataInputs_write h3, Outcome.bind_ok, Outcome.bind_ok, e4, Outcome.bind_ok]
  unfold UnsignedTransaction.newFromVec
  rw [ioVec_ok h1, optIoVec_ok h3, ioVec_ok h4]
  simp only [ofOpt, Outcome.bind_ok, hm]

end
end Verif
