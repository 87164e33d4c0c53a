import Verif.Proofs.JsonFormChain
import Verif.Props.JsonTx
import Verif.Props.JsonHeader
import Verif.Props.JsonHint

set_option linter.unusedSimpArgs false
set_option linter.unusedVariables false

/-!
# C111: the names and shapes of the JSON forms
-/

namespace Verif
open Spec Json Merkle Sigma

/-- C111: bytes are written as two lower case hexadecimal digits each, and numbers in decimal. -/
theorem C111_texts (b : Bytes) (n : Nat) (i : Int) :
    hexEnc b = hexText b ∧ decimal n = (toString n).toList ∧ bigText i = (toString i).toList :=
  ⟨hexEnc_eq b, decimal_eq n, bigText_eq i⟩

example : hexText [0x0f, 0xa2] = "0fa2".toList := by decide +kernel

section
variable {G B T : Type} [DecidableEq G]

/-! ## Boxes and transactions -/

/-- C111: a candidate that is written has the form of the node. -/
theorem C111_candidate (E : Sers G B T) (ord : List (Text × Json) → List (Text × Json)) (ho : IsOrder ord) (c : BoxCand G B T) (j : Json)
    (h : writeCand E ord c = .ok j) : CandForm asNumber E c j := writeCand_form E ho h

/-- C111: a box that is written has the form of the node. -/
theorem C111_box (E : Sers G B T) (ord : List (Text × Json) → List (Text × Json)) (ho : IsOrder ord) (b : EBox G B T) (j : Json)
    (h : writeBox E ord b = .ok j) : BoxForm asNumber E b j := writeBox_form E ho h

/-- C111: an input is written in the form of the node, and nothing else is. -/
theorem C111_input (E : Sers G B T) (i : Input G B) (j : Json) : writeInput E i = .ok j ↔ InputForm E i j := writeInput_form E i j

/-- C111: so is an input without proof. -/
theorem C111_unsigned_input (E : Sers G B T) (i : UnsignedInput G B) (j : Json) :
    writeUnsignedInput E i = .ok j ↔ UnsignedInputForm E i j := writeUnsignedInput_form E i j

/-- C111: a transaction that is written has the form of the node. -/
theorem C111_transaction (E : Sers G B T) (ord : List (Text × Json) → List (Text × Json)) (ho : IsOrder ord) (t : Tx G B T) (j : Json)
    (h : writeTx E ord t = .ok j) : TxForm asNumber E t j := writeTx_form E ho h

/-- C111: so has an unsigned one. -/
theorem C111_unsigned_transaction (E : Sers G B T) (ord : List (Text × Json) → List (Text × Json)) (ho : IsOrder ord)
    (u : UnsignedTransaction G B T) (j : Json) (h : writeUnsignedTx E ord u = .ok j) : UnsignedTxForm asNumber E u j :=
  writeUnsignedTx_form E ho h

/-- C111: every JSON value in the form of a box, with the registers in whatever order and the amounts as numbers or as texts, is read as
that box. -/
theorem C111_reads_box (E : Sers G B T) (tp : Bytes → Option T) {bwf : B → Prop} {twf twf' : T → Prop} (h : GoodSers E bwf twf')
    (ht : TreeText E tp twf) (b : EBox G B T) (hb : JsonBox E bwf twf b) (j : Json) (hf : BoxForm asNumber E b j ∨ BoxForm asText E b j) :
    readBox E tp j = .ok b := by
  rcases hf with hf | hf
  · exact readBox_form E tp h ht asNumber_form hb hf
  · exact readBox_form E tp h ht asText_form hb hf

/-- C111: the same for transactions. -/
theorem C111_reads_transaction (E : Sers G B T) (tp : Bytes → Option T) {bwf : B → Prop} {twf twf' : T → Prop} (h : GoodSers E bwf twf')
    (ht : TreeText E tp twf) (t : Tx G B T) (hp : JsonParts E bwf twf t.inputs t.dataInputs t.cands)
    (hm : Tx.new E t.inputs t.dataInputs t.cands = .ok t) (j : Json) (hf : TxForm asNumber E t j ∨ TxForm asText E t j) :
    readTx E tp j = .ok t := by
  rcases hf with hf | hf
  · exact readTx_form E tp h ht asNumber_form t hp hm hf
  · exact readTx_form E tp h ht asText_form t hp hm hf

/-- Non-trivial case: a box with two registers, the second one first, and the value as text. -/
example : readBox toySers toyTp (fields [("boxId", hex jsonExampleBox.boxId), ("value", lit "20000"), ("ergoTree", lit "07"),
    ("assets", .arr []), ("additionalRegisters", fields [("R5", lit "0404"), ("R4", lit "0402")]), ("creationHeight", asNumber 5),
    ("transactionId", hex zeros32), ("index", asNumber 1)]) = .ok jsonExampleBox := by
  refine C111_reads_box toySers toyTp toySers_good toyTp_text jsonExampleBox jsonExample_good _ (Or.inr
    ⟨[7], [("R5".toList, lit "0404"), ("R4".toList, lit "0402")], rfl, ⟨[[4, 2], [4, 4]], ?_, by decide, ?_⟩, ?_⟩)
  · exact List.Forall₂.cons (by decide +kernel) (List.Forall₂.cons (by decide +kernel) List.Forall₂.nil)
  · have h1 : hex [4, 2] = lit "0402" := congrArg Json.str (by decide +kernel)
    have h2 : hex [4, 4] = lit "0404" := congrArg Json.str (by decide +kernel)
    simp only [List.map_cons, List.map_nil, h1, h2, List.zip_cons_cons, List.zip_nil_right]
    exact List.Perm.swap _ _ _
  · have h1 : asText jsonExampleBox.value = lit "20000" := congrArg Json.str (by decide +kernel)
    have h2 : hex [7] = lit "07" := congrArg Json.str (by decide +kernel)
    rw [h1, h2]
    conv_rhs => rw [fields]
    conv_lhs => rw [fields]
    rfl

/-! ## Other names -/

/-- C111: the id of a box may be called `id`, that of its transaction `txId`. -/
theorem C111_box_names (E : Sers G B T) (tp : Bytes → Option T) (o : List (Text × Json)) :
    readBox E tp (.obj (renamed "id" "boxId" o)) = readBox E tp (.obj o) ∧
    readBox E tp (.obj (renamed "boxId" "id" o)) = readBox E tp (.obj o) ∧
    readBox E tp (.obj (renamed "txId" "transactionId" o)) = readBox E tp (.obj o) ∧
    readBox E tp (.obj (renamed "transactionId" "txId" o)) = readBox E tp (.obj o) := by
  have key : ∀ a b : String, (∀ names ∈ [[kBoxId, kId], [kValue], [kErgoTree], [kAssets], [kRegisters], [kHeight], [kTransactionId, kTxId],
      [kIndex]], a.toList ∈ names ↔ b.toList ∈ names) → readBox E tp (.obj (renamed a b o)) = readBox E tp (.obj o) := by
    intro a b h
    unfold readBox
    simp only []
    rw [opt_renamed (h _ (by simp)), req_renamed (names := [kTransactionId, kTxId]) (h _ (by simp)),
      req_renamed (names := [kIndex]) (h _ (by simp)), readCandFields_congr E tp (o := renamed a b o) (o' := o) (fun k hk => req_renamed (by
        simp only [List.mem_cons, List.not_mem_nil, or_false] at hk
        rcases hk with rfl | rfl | rfl | rfl | rfl <;> exact h _ (by simp)) o)]
  exact ⟨key _ _ (by decide +kernel), key _ _ (by decide +kernel), key _ _ (by decide +kernel), key _ _ (by decide +kernel)⟩

/-- C111: the id of the box of an input and of a data input may be called `id`. -/
theorem C111_input_names (E : Sers G B T) (o : List (Text × Json)) :
    readInput E (.obj (renamed "id" "boxId" o)) = readInput E (.obj o) ∧ readInput E (.obj (renamed "boxId" "id" o)) = readInput E (.obj o) ∧
    readDataInput (.obj (renamed "id" "boxId" o)) = readDataInput (.obj o) ∧
    readDataInput (.obj (renamed "boxId" "id" o)) = readDataInput (.obj o) := by
  have key : ∀ a b : String, (∀ names ∈ [[kBoxId, kId], [kSpendingProof]], a.toList ∈ names ↔ b.toList ∈ names) →
      readInput E (.obj (renamed a b o)) = readInput E (.obj o) ∧ readDataInput (.obj (renamed a b o)) = readDataInput (.obj o) := by
    intro a b h
    unfold readInput readDataInput
    simp only []
    rw [req_renamed (names := [kBoxId, kId]) (h _ (by simp)), req_renamed (names := [kSpendingProof]) (h _ (by simp))]
    exact ⟨rfl, rfl⟩
  exact ⟨(key _ _ (by decide +kernel)).1, (key _ _ (by decide +kernel)).1, (key _ _ (by decide +kernel)).2, (key _ _ (by decide +kernel)).2⟩

/-- C111: the value of a register is a text, or an object that has it as `rawValue` or as `serializedValue`. -/
theorem C111_register_names (E : Sers G B T) (s : Text) (o : List (Text × Json)) (hn : "rawValue".toList ∉ o.map Prod.fst)
    (hs : "serializedValue".toList ∉ o.map Prod.fst) :
    readRegister E (.obj (("rawValue".toList, .str s) :: o)) = readRegister E (.str s) ∧
    readRegister E (.obj (("serializedValue".toList, .str s) :: o)) = readRegister E (.str s) := by
  have h0 : named [kRawValue, kSerializedValue] o = [] := by
    unfold named
    rw [List.map_eq_nil_iff, List.filter_eq_nil_iff]
    intro p hp
    simp only [List.mem_cons, List.not_mem_nil, or_false, decide_eq_true_eq, not_or]
    exact ⟨fun e => hn (by rw [show "rawValue".toList = kRawValue from rfl, ← e]; exact List.mem_map_of_mem hp),
      fun e => hs (by rw [show "serializedValue".toList = kSerializedValue from rfl, ← e]; exact List.mem_map_of_mem hp)⟩
  have key : ∀ k : Text, k ∈ [kRawValue, kSerializedValue] → readRegister E (.obj ((k, .str s) :: o)) = readRegister E (.str s) := by
    intro k hk
    have : req [kRawValue, kSerializedValue] ((k, Json.str s) :: o) = .ok (.str s) := by
      unfold req
      rw [show named [kRawValue, kSerializedValue] ((k, Json.str s) :: o) = Json.str s :: named [kRawValue, kSerializedValue] o from by
        unfold named; rw [List.filter_cons_of_pos (by simpa using hk)]; rfl, h0]
    unfold readRegister
    simp only []
    rw [this, Outcome.bind_ok]
    unfold readHex readStr
    simp only [Outcome.bind_ok]
  exact ⟨key _ (by rw [show "rawValue".toList = kRawValue from rfl]; simp),
    key _ (by rw [show "serializedValue".toList = kSerializedValue from rfl]; simp)⟩

/-- Non-trivial case: the explorer gives more fields with a register. -/
example : "rawValue".toList ∉ [("sigmaType".toList, lit "SInt")].map Prod.fst ∧
    "serializedValue".toList ∉ [("sigmaType".toList, lit "SInt")].map Prod.fst := by
  simp only [List.map_cons, List.map_nil]
  decide +kernel

/-- Finding for C111: an unsigned input with its box called `id`, which the readers of signed inputs and of data inputs allow, is refused. -/
theorem C111_unsigned_input_violates (E : Sers G B T) (o : List (Text × Json)) :
    readUnsignedInput E (.obj (renamed "boxId" "id" o)) = .err := by
  have h0 : named [kBoxId] (renamed "boxId" "id" o) = [] := by
    unfold named renamed
    rw [List.map_eq_nil_iff, List.filter_eq_nil_iff]
    intro p hp
    obtain ⟨r, _, rfl⟩ := List.mem_map.1 hp
    simp only [List.mem_cons, List.not_mem_nil, or_false, decide_eq_true_eq]
    split
    · simp only []
      decide +kernel
    · rename_i hr
      exact fun e => hr (by rw [e]; rfl)
  have h1 : req [kBoxId] (renamed "boxId" "id" o) = .err := by
    unfold req
    rw [h0]
  unfold readUnsignedInput
  simp only []
  rw [h1]
  rfl

example : ∃ o, readUnsignedInput toySers (.obj o) = .ok ⟨zeros32, []⟩ :=
  ⟨[(kBoxId, .str (hexEnc zeros32)), (kExtension, .obj [])], by rfl⟩

end

/-! ## Headers and proofs -/

section
variable {G : Type} [DecidableEq G]

/-- C111: headers have the form of the node. -/
theorem C111_header (pc : PointCodec G) (h : Header G) : writeHeader pc h = headerForm pc h := writeHeader_form pc h

/-- C111: so have Merkle proofs of one leaf, of many leaves, and NiPoPoW proofs. -/
theorem C111_proofs (pc : PointCodec G) (p : Proof) (b : Batch) (h : PoPowHeader G) (n : NipopowProof G) :
    writeProof p = fields [("leafData", hex p.leafData), ("levels", .arr (p.levels.map fun l => .arr [levelForm l, sideForm l.side]))] ∧
    writeBatch b = batchForm b ∧ writePoPow pc h = popowForm pc h ∧
    writeNipopow pc n = fields [("m", asNumber n.m.toNat), ("k", asNumber n.k.toNat), ("prefix", .arr (n.pre.map (popowForm pc))),
      ("suffixHead", popowForm pc n.suffixHead), ("suffixTail", .arr (n.suffixTail.map (headerForm pc)))] :=
  ⟨writeProof_form p, writeBatch_form b, writePoPow_form pc h, writeNipopow_form pc n⟩

/-- C111: and blocks. -/
theorem C111_block {B T : Type} (E : Sers G B T) (ord : List (Text × Json) → List (Text × Json)) (ho : IsOrder ord) (b : FullBlock G B T)
    (j : Json) (h : writeBlock E ord b = .ok j) : ∃ ts, List.Forall₂ (TxForm asNumber E) b.transactions ts ∧
    j = fields [("header", headerForm E.pc b.header), ("blockTransactions", fields [("transactions", .arr ts)])] := by
  unfold writeBlock at h
  obtain ⟨ts, h1, h⟩ := json_bind_ok.1 h
  cases h
  refine ⟨ts, (writeMany_iff.1 h1).imp fun t j => writeTx_form E ho, ?_⟩
  rw [writeHeader_form, show fields [("transactions", Json.arr ts)] = .obj [(kTransactions, .arr ts)] from by
    simp only [fields, List.map_cons, List.map_nil]; rfl]
  conv_rhs => rw [fields]
  simp only [List.map_cons, List.map_nil]
  rfl

/-! ## Propositions and hints -/

/-- C111: propositions have the form of the node. -/
theorem C111_propositions (pc : PointCodec G) (g h u v : G) (k : Byte) (l : List (SigmaBoolean G)) :
    writeSB pc (.trivial true) = fields [("op", lit "301"), ("condition", .bool true)] ∧
    writeSB pc (.trivial false) = fields [("op", lit "300"), ("condition", .bool false)] ∧
    writeSB pc (.dlog h) = fields [("op", lit "205"), ("h", hex (putPoint pc h))] ∧
    writeSB pc (.dht g h u v) = fields [("op", lit "206"), ("g", hex (putPoint pc g)), ("h", hex (putPoint pc h)),
      ("u", hex (putPoint pc u)), ("v", hex (putPoint pc v))] ∧
    writeSB pc (.cand l) = fields [("op", lit "150"), ("args", .arr (l.map (writeSB pc)))] ∧
    writeSB pc (.cor l) = fields [("op", lit "151"), ("args", .arr (l.map (writeSB pc)))] ∧
    writeSB pc (.cth k l) = fields [("op", lit "152"), ("k", asNumber k.toNat), ("args", .arr (l.map (writeSB pc)))] := by
  refine ⟨?_, ?_, ?_, ?_, ?_, ?_, ?_⟩ <;> rw [writeSB] <;> try simp only [writePoint_form, writeSBs_map]
  all_goals
    conv_rhs => rw [fields]
    simp only [List.map_cons, List.map_nil, lit]
    rfl

variable {q : Nat}

/-- C111: hints have the form of the node. -/
theorem C111_hints (pc : PointCodec G) (i : SigmaBoolean G) (e : Challenge) (t : Unchecked G q) (r : ZMod q) (m : Msg G) (pos : Position) :
    (∀ j, writeHint pc (.realProof i e t pos) = .ok j ↔ ∃ bs, serializeSig t = .ok bs ∧ j = fields [("hint", lit "proofReal"),
      ("pubkey", writeSB pc i), ("challenge", hex e.1), ("proof", hex bs), ("position", positionForm pos)]) ∧
    (∀ j, writeHint pc (.simulatedProof i e t pos) = .ok j ↔ ∃ bs, serializeSig t = .ok bs ∧ j = fields [("hint", lit "proofSimulated"),
      ("pubkey", writeSB pc i), ("challenge", hex e.1), ("proof", hex bs), ("position", positionForm pos)]) ∧
    writeHint pc (.ownCommitment i r m pos) = .ok (fields ([("hint", lit "cmtWithSecret"), ("pubkey", writeSB pc i),
      ("secret", hex (scalarBytes r))] ++ msgForm pc m ++ [("position", positionForm pos)])) ∧
    writeHint (q := q) pc (.realCommitment i m pos) = .ok (fields ([("hint", lit "cmtReal"), ("pubkey", writeSB pc i)] ++ msgForm pc m ++
      [("position", positionForm pos)])) ∧
    writeHint (q := q) pc (.simulatedCommitment i m pos) = .ok (fields ([("hint", lit "cmtSimulated"), ("pubkey", writeSB pc i)] ++
      msgForm pc m ++ [("position", positionForm pos)])) := by
  refine ⟨fun j => ?_, fun j => ?_, ?_, ?_, ?_⟩
  · unfold writeHint
    rw [json_bind_ok]
    refine exists_congr fun bs => and_congr_right fun _ => ?_
    rw [strHex_eq, strHex_eq, writePos_eq]
    simp only [Outcome.pure_eq, Outcome.ok.injEq]
    conv_rhs => rw [fields]
    simp only [List.map_cons, List.map_nil, lit]
    exact ⟨fun h => h.symm, fun h => h.symm⟩
  · unfold writeHint
    rw [json_bind_ok]
    refine exists_congr fun bs => and_congr_right fun _ => ?_
    rw [strHex_eq, strHex_eq, writePos_eq]
    simp only [Outcome.pure_eq, Outcome.ok.injEq]
    conv_rhs => rw [fields]
    simp only [List.map_cons, List.map_nil, lit]
    exact ⟨fun h => h.symm, fun h => h.symm⟩
  · unfold writeHint
    dsimp only
    rw [strHex_eq, writePos_eq, writeMsg_form]
    conv_rhs => rw [fields]
    simp only [List.map_cons, List.map_nil, List.map_append, lit, List.cons_append, List.nil_append]
    rfl
  · unfold writeHint
    dsimp only
    rw [writePos_eq, writeMsg_form]
    conv_rhs => rw [fields]
    simp only [List.map_cons, List.map_nil, List.map_append, lit, List.cons_append, List.nil_append]
    rfl
  · unfold writeHint
    dsimp only
    rw [writePos_eq, writeMsg_form]
    conv_rhs => rw [fields]
    simp only [List.map_cons, List.map_nil, List.map_append, lit, List.cons_append, List.nil_append]
    rfl

/-- C111: the hints of a transaction: for each kind an object with the numbers of the inputs, in any order. -/
theorem C111_hint_bags (pc : PointCodec G) (ord : List (Text × Json) → List (Text × Json)) (ho : IsOrder ord) (b : TxHints G q) (j : Json)
    (h : writeTxHints pc ord b = .ok j) :
    ∃ s p s' p' : List (Text × Json), j = fields [("secretHints", .obj s), ("publicHints", .obj p)] ∧ s.Perm s' ∧ p.Perm p' ∧
      List.Forall₂ (fun x e => ∃ js, List.Forall₂ (fun a j => writeHint pc a = .ok j) x.2 js ∧ e = ((toString x.1).toList, Json.arr js))
        b.secretHints s' ∧
      List.Forall₂ (fun x e => ∃ js, List.Forall₂ (fun a j => writeHint pc a = .ok j) x.2 js ∧ e = ((toString x.1).toList, Json.arr js))
        b.publicHints p' := by
  have key : ∀ (m : FMap Nat (List (Hint G q))) (o : List (Text × Json)), writeHintMap pc m = .ok o →
      List.Forall₂ (fun x e => ∃ js, List.Forall₂ (fun a j => writeHint pc a = .ok j) x.2 js ∧ e = ((toString x.1).toList, Json.arr js))
        m o := by
    intro m
    induction m with
    | nil =>
      intro o h
      rw [writeHintMap] at h
      cases h
      exact List.Forall₂.nil
    | cons x m ih =>
      intro o h
      rw [writeHintMap] at h
      obtain ⟨hs, h1, h⟩ := json_bind_ok.1 h
      obtain ⟨r, h2, h⟩ := json_bind_ok.1 h
      cases h
      exact List.Forall₂.cons ⟨hs, writeMany_iff.1 h1, by rw [decimal_eq]⟩ (ih r h2)
  unfold writeTxHints at h
  obtain ⟨s, h1, h⟩ := json_bind_ok.1 h
  obtain ⟨p, h2, h⟩ := json_bind_ok.1 h
  cases h
  refine ⟨ord s, ord p, s, p, ?_, ho s, ho p, key _ _ h1, key _ _ h2⟩
  conv_rhs => rw [fields]
  simp only [List.map_cons, List.map_nil]
  rfl

/-- Non-trivial case: the position of a node. -/
example : positionForm [0, 12, 3] = lit "0-12-3" := congrArg Json.str (by decide +kernel)

end

/-! ## Answers of nodes -/

/-- C111: what a node says of itself and of its peers. -/
theorem C111_node {U : Type} (A : AddrText U) (n : NodeInfo) (p : RestPeer) :
    writeNodeInfo n = fields [("name", .str n.name), ("appVersion", .str n.appVersion)] ∧
    writeRestPeer A p = fields [("address", .str (A.print p.addr)), ("lastMessage", asNumber p.lastMessage.toNat),
      ("lastHandshake", asNumber p.lastHandshake.toNat), ("name", .str p.name), ("connectionType", match p.connType with
        | none => .null
        | some .incoming => lit "Incoming"
        | some .outgoing => lit "Outgoing")] := by
  constructor
  · unfold writeNodeInfo
    conv_rhs => rw [fields]
    simp only [List.map_cons, List.map_nil]
    rfl
  · unfold writeRestPeer
    conv_rhs => rw [fields]
    simp only [List.map_cons, List.map_nil, lit]
    rcases p.connType with _ | d
    · rfl
    · cases d <;> rfl

end Verif
