import Verif.Proofs.Json

set_option linter.unusedSimpArgs false
set_option linter.unusedVariables false

/-!
# JSON of boxes, inputs and transactions
-/

namespace Verif
open Spec Json

section
variable {G B T : Type}

/-! ## Candidates -/

theorem readCandFields_of (E : Sers G B T) (tp : Bytes → Option T) {o : List (Text × Json)} {c : BoxCand G B T}
    (h1 : (req [kValue] o >>= readAmount) = .ok c.value) (h2 : (req [kErgoTree] o >>= readTree tp) = .ok c.tree)
    (h3 : (req [kAssets] o >>= readTokens) = .ok c.tokens) (h4 : (req [kRegisters] o >>= readRegs E) = .ok c.regs)
    (h5 : (req [kHeight] o >>= readUint (2 ^ 32)) = .ok c.height.toNat) : readCandFields E tp o = .ok c := by
  unfold readCandFields
  rw [h1, Outcome.bind_ok, h2, Outcome.bind_ok, h3, Outcome.bind_ok, h4, Outcome.bind_ok, h5, Outcome.bind_ok]
  simp only [Outcome.pure_eq, BitVec.ofNat_toNat, BitVec.setWidth_eq]

theorem readCandFields_inv (E : Sers G B T) (tp : Bytes → Option T) {o : List (Text × Json)} {c : BoxCand G B T}
    (h : readCandFields E tp o = .ok c) :
    (req [kValue] o >>= readAmount) = .ok c.value ∧ (req [kErgoTree] o >>= readTree tp) = .ok c.tree ∧
    (req [kAssets] o >>= readTokens) = .ok c.tokens ∧ (req [kRegisters] o >>= readRegs E) = .ok c.regs ∧
    (req [kHeight] o >>= readUint (2 ^ 32)) = .ok c.height.toNat := by
  unfold readCandFields at h
  obtain ⟨v, h1, h⟩ := json_bind_ok.1 h
  obtain ⟨t, h2, h⟩ := json_bind_ok.1 h
  obtain ⟨tk, h3, h⟩ := json_bind_ok.1 h
  obtain ⟨rs, h4, h⟩ := json_bind_ok.1 h
  obtain ⟨hh, h5, h⟩ := json_bind_ok.1 h
  cases h
  refine ⟨h1, h2, h3, h4, ?_⟩
  rw [h5]
  obtain ⟨_, _, h6⟩ := json_bind_ok.1 h5
  simp only [toNat_ofNat32 (readUint_lt h6)]

theorem readTree_spec {tp : Bytes → Option T} {j : Json} {t : T} (h : readTree tp j = .ok t) : ∃ b, tp b = some t := by
  unfold readTree at h
  obtain ⟨b, _, h2⟩ := json_bind_ok.1 h
  exact ⟨b, json_ofOpt.1 h2⟩

theorem readCandFields_spec [DecidableEq G] (E : Sers G B T) (tp : Bytes → Option T) {bwf : B → Prop}
    (hp : BoxParsed E.bc bwf) {o : List (Text × Json)} {c : BoxCand G B T} (h : readCandFields E tp o = .ok c) :
    JsonCand E bwf (fun t => ∃ b, tp b = some t) c := by
  obtain ⟨h1, h2, h3, h4, h5⟩ := readCandFields_inv E tp h
  obtain ⟨_, _, h1⟩ := json_bind_ok.1 h1
  obtain ⟨_, _, h2⟩ := json_bind_ok.1 h2
  obtain ⟨_, _, h3⟩ := json_bind_ok.1 h3
  obtain ⟨_, _, h4⟩ := json_bind_ok.1 h4
  exact ⟨readAmount_lt h1, readTree_spec h2, readTokens_spec h3, readRegs_spec E hp h4⟩

theorem readCandFields_congr (E : Sers G B T) (tp : Bytes → Option T) {o o' : List (Text × Json)}
    (h : ∀ k ∈ [kValue, kErgoTree, kAssets, kRegisters, kHeight], req [k] o = req [k] o') :
    readCandFields E tp o = readCandFields E tp o' := by
  unfold readCandFields
  rw [h kValue (by simp), h kErgoTree (by simp), h kAssets (by simp), h kRegisters (by simp), h kHeight (by simp)]

variable [DecidableEq G]

/-- The fields of a candidate, as written. -/
theorem writeCandFields_rt (E : Sers G B T) (tp : Bytes → Option T) {bwf : B → Prop} {twf twf' : T → Prop}
    (h : GoodSers E bwf twf') (ht : TreeText E tp twf) {ord : List (Text × Json) → List (Text × Json)} (ho : IsOrder ord)
    (c : BoxCand G B T) (hc : JsonCand E bwf twf c) :
    ∃ tree regs, writeCandFields E ord c = .ok [(kValue, .num (.nat c.value)), (kErgoTree, .str (hexEnc tree)),
      (kAssets, .arr ((c.tokens.getD []).map writeToken)), (kRegisters, regs), (kHeight, .num (.nat c.height.toNat))] ∧
      readTree tp (.str (hexEnc tree)) = .ok c.tree ∧ readRegs E regs = .ok c.regs := by
  obtain ⟨tree, e1, e2⟩ := ht c.tree hc.tree
  obtain ⟨regs, e3, e4⟩ := readRegs_write E h ho c.regs hc.regs.1 hc.regs.2
  refine ⟨tree, regs, by unfold writeCandFields; rw [e1, Outcome.bind_ok, e3, Outcome.bind_ok]; rfl, ?_, e4⟩
  unfold readTree
  rw [readHex_hex, Outcome.bind_ok, e2]
  rfl

theorem writeCand_rt (E : Sers G B T) (tp : Bytes → Option T) {bwf : B → Prop} {twf twf' : T → Prop}
    (h : GoodSers E bwf twf') (ht : TreeText E tp twf) {ord : List (Text × Json) → List (Text × Json)} (ho : IsOrder ord)
    (c : BoxCand G B T) (hc : JsonCand E bwf twf c) :
    ∃ j, writeCand E ord c = .ok j ∧ readCand E tp j = .ok c := by
  obtain ⟨tree, regs, e1, e2, e3⟩ := writeCandFields_rt E tp h ht ho c hc
  refine ⟨_, by unfold writeCand; rw [e1, Outcome.bind_ok]; rfl, ?_⟩
  unfold readCand
  simp only []
  refine readCandFields_of E tp ?_ ?_ ?_ ?_ ?_
  · exact readAmount_nat hc.value
  · exact e2
  · exact readTokens_write hc.tokens
  · exact e3
  · exact readUint_nat c.height.isLt

/-! ## Boxes -/

/-- When reading an object as a box succeeds. -/
theorem readBox_iff (E : Sers G B T) (tp : Bytes → Option T) {o : List (Text × Json)} {b : EBox G B T} :
    readBox E tp (.obj o) = .ok b ↔
      (opt [kBoxId, kId] o = .ok none ∨ ∃ j, opt [kBoxId, kId] o = .ok (some j) ∧ readDigest j = .ok b.boxId) ∧
      readCandFields E tp o = .ok b.toCand ∧
      (req [kTransactionId, kTxId] o >>= readDigest) = .ok b.txId ∧
      (req [kIndex] o >>= readUint (2 ^ 16)) = .ok b.index.toNat ∧ b.calcId E = .ok b.boxId := by
  unfold readBox
  simp only []
  constructor
  · intro h
    obtain ⟨declared, h1, h⟩ := json_bind_ok.1 h
    obtain ⟨did, h2, h⟩ := json_bind_ok.1 h
    obtain ⟨c, h3, h⟩ := json_bind_ok.1 h
    obtain ⟨txId, h4, h⟩ := json_bind_ok.1 h
    obtain ⟨index, h5, h⟩ := json_bind_ok.1 h
    obtain ⟨b', h6, h⟩ := json_bind_ok.1 h
    have hb : b' = b ∧ ∀ d, did = some d → b'.boxId = d := by
      cases did with
      | none => cases h; exact ⟨rfl, by simp⟩
      | some d =>
        simp only [] at h
        split at h
        · rename_i hd
          cases h
          exact ⟨rfl, by rintro _ ⟨⟩; exact hd⟩
        · cases h
    obtain ⟨rfl, hd⟩ := hb
    obtain ⟨s1, s2, s3, s4⟩ := EBox.ofCand_spec E h6
    obtain ⟨_, _, h7⟩ := json_bind_ok.1 h5
    have hlt := readUint_lt h7
    refine ⟨?_, s1 ▸ h3, s2 ▸ h4, ?_, s4⟩
    · cases declared with
      | none => exact Or.inl h1
      | some j =>
        refine Or.inr ⟨j, h1, ?_⟩
        obtain ⟨d, h8, h9⟩ := json_bind_ok.1 h2
        cases h9
        rw [h8, hd d rfl]
    · rw [h5, s3, toNat_ofNat16 (by omega)]
  · rintro ⟨h1, h2, h3, h4, h5⟩
    have key : EBox.ofCand E b.toCand b.txId b.index = .ok b := by
      unfold EBox.ofCand
      unfold EBox.calcId at h5 ⊢
      obtain ⟨x, g1, g2⟩ := Outcome.bind_eq_ok.1 h5
      simp only [EBox.ser_eq] at g1 ⊢
      simp only [EBox.toCand] at g1 ⊢
      simp only [g1, Outcome.bind_ok, Outcome.pure_eq]
      simp only [Outcome.pure_eq, Outcome.ok.injEq] at g2
      rw [g2]
    rcases h1 with h1 | ⟨j, h1, hj⟩
    · rw [h1, Outcome.bind_ok]
      simp only [readDeclaredId, Outcome.pure_eq, Outcome.bind_ok]
      rw [h2, Outcome.bind_ok, h3, Outcome.bind_ok, h4, Outcome.bind_ok, BitVec.ofNat_toNat, BitVec.setWidth_eq, key]
      rfl
    · rw [h1, Outcome.bind_ok]
      simp only [readDeclaredId, hj, Outcome.pure_eq, Outcome.bind_ok]
      rw [h2, Outcome.bind_ok, h3, Outcome.bind_ok, h4, Outcome.bind_ok, BitVec.ofNat_toNat, BitVec.setWidth_eq, key,
        Outcome.bind_ok]
      exact if_pos rfl

theorem calcId_len (E : Sers G B T) {b : EBox G B T} (h : b.calcId E = .ok b.boxId) : b.boxId.length = 32 := by
  unfold EBox.calcId at h
  obtain ⟨x, _, h2⟩ := Outcome.bind_eq_ok.1 h
  simp only [Outcome.pure_eq, Outcome.ok.injEq] at h2
  rw [← h2]
  exact E.H.len x

theorem writeBox_rt (E : Sers G B T) (tp : Bytes → Option T) {bwf : B → Prop} {twf twf' : T → Prop}
    (h : GoodSers E bwf twf') (ht : TreeText E tp twf) {ord : List (Text × Json) → List (Text × Json)} (ho : IsOrder ord)
    (b : EBox G B T) (hb : JsonBox E bwf twf b) : ∃ j, writeBox E ord b = .ok j ∧ readBox E tp j = .ok b := by
  obtain ⟨tree, regs, e1, e2, e3⟩ := writeCandFields_rt E tp h ht ho b.toCand hb.cand
  refine ⟨_, by unfold writeBox; rw [e1, Outcome.bind_ok]; rfl, ?_⟩
  refine (readBox_iff E tp).2 ⟨Or.inr ⟨.str (hexEnc b.boxId), rfl, readDigest_hex (calcId_len E hb.id)⟩, ?_, ?_, ?_, hb.id⟩
  · refine readCandFields_of E tp ?_ ?_ ?_ ?_ ?_
    · exact readAmount_nat hb.cand.value
    · exact e2
    · exact readTokens_write hb.cand.tokens
    · exact e3
    · exact readUint_nat b.height.isLt
  · exact readDigest_hex hb.txId
  · exact readUint_nat b.index.isLt

theorem readBox_obj (E : Sers G B T) (tp : Bytes → Option T) {j : Json} {b : EBox G B T} (h : readBox E tp j = .ok b) :
    ∃ o, j = .obj o := by
  unfold readBox at h
  split at h
  · exact ⟨_, rfl⟩
  · cases h

theorem readBox_spec (E : Sers G B T) (tp : Bytes → Option T) {bwf : B → Prop} (hp : BoxParsed E.bc bwf) {j : Json}
    {b : EBox G B T} (h : readBox E tp j = .ok b) : JsonBox E bwf (fun t => ∃ x, tp x = some t) b := by
  obtain ⟨o, rfl⟩ := readBox_obj E tp h
  obtain ⟨_, h2, h3, _, h5⟩ := (readBox_iff E tp).1 h
  obtain ⟨_, _, h3⟩ := json_bind_ok.1 h3
  exact ⟨readCandFields_spec E tp hp h2, readDigest_len h3, h5⟩

/-! ## Extensions -/

theorem readStrMap_iff : ∀ (l : List (Text × Json)) (m m' : FMap Text Text),
    readStrMap l m = .ok m' ↔ ∃ es : List (Text × Text), l = es.map (fun p => (p.1, Json.str p.2)) ∧
      m' = FMap.insertList m es
  | [], m, m' => by
    rw [readStrMap]
    constructor
    · intro h; cases h; exact ⟨[], rfl, rfl⟩
    · rintro ⟨es, h1, h2⟩
      cases es with
      | nil => rw [h2]; rfl
      | cons a l => simp at h1
  | p :: l, m, m' => by
    rw [readStrMap]
    constructor
    · intro h
      obtain ⟨s, h1, h2⟩ := json_bind_ok.1 h
      obtain ⟨es, h3, h4⟩ := (readStrMap_iff l _ m').1 h2
      refine ⟨(p.1, s) :: es, ?_, h4⟩
      rw [List.map_cons, ← h3]
      congr 1
      unfold readStr at h1
      split at h1
      · cases h1
        rename_i x hx
        cases p
        simp only at hx
        subst hx
        rfl
      · cases h1
    · rintro ⟨es, h1, h2⟩
      cases es with
      | nil => simp at h1
      | cons a es =>
        simp only [List.map_cons, List.cons.injEq] at h1
        rw [h1.1]
        show readStrMap l (FMap.insert m a.1 a.2) = _
        exact (readStrMap_iff l _ m').2 ⟨es, h1.2, h2⟩

/-- What reading one context variable means. -/
def ExtEntry (E : Sers G B T) (p : Text × Text) (q : Byte × Constant G B) : Prop :=
  ∃ i b rest, parseUint 256 p.1 = some i ∧ hexDec p.2 = some b ∧ Constant.parse E.utf8 E.pc E.bc b = some (q.2, rest) ∧
    q.1 = BitVec.ofNat 8 i

omit [DecidableEq G] in
theorem extOfStrMap_iff (E : Sers G B T) : ∀ (l : FMap Text Text) (m m' : Extension G B),
    extOfStrMap E l m = .ok m' ↔ ∃ es, List.Forall₂ (ExtEntry E) l es ∧ m' = FMap.insertList m es
  | [], m, m' => by
    rw [extOfStrMap]
    constructor
    · intro h; cases h; exact ⟨[], List.Forall₂.nil, rfl⟩
    · rintro ⟨es, h1, h2⟩
      cases h1
      rw [h2]; rfl
  | p :: l, m, m' => by
    rw [extOfStrMap]
    constructor
    · intro h
      obtain ⟨i, h1, h⟩ := json_bind_ok.1 h
      obtain ⟨b, h2, h⟩ := json_bind_ok.1 h
      obtain ⟨c, h3, h⟩ := json_bind_ok.1 h
      obtain ⟨es, h5, h6⟩ := (extOfStrMap_iff E l _ m').1 h
      exact ⟨(BitVec.ofNat 8 i, c.1) :: es, List.Forall₂.cons ⟨i, b, c.2, json_ofOpt.1 h1, json_ofOpt.1 h2,
        json_ofOpt.1 h3, rfl⟩ h5, h6⟩
    · rintro ⟨es, h1, h2⟩
      cases h1 with
      | cons h3 h4 =>
        rename_i q es'
        obtain ⟨i, b, rest, g1, g2, g3, g4⟩ := h3
        rw [json_ofOpt.2 g1, Outcome.bind_ok, json_ofOpt.2 g2, Outcome.bind_ok, json_ofOpt.2 g3, Outcome.bind_ok]
        simp only [← g4]
        exact (extOfStrMap_iff E l _ m').2 ⟨es', h4, h2⟩

theorem writeExtEntries_rt (E : Sers G B T) {bwf : B → Prop} {twf : T → Prop} (h : GoodSers E bwf twf) :
    ∀ (m : Extension G B), (∀ p ∈ m, GoodConst E.utf8 bwf p.2) →
      ∃ l : List (Text × Text), writeExtEntries E m = .ok (l.map fun p => (p.1, Json.str p.2)) ∧
        List.Forall₂ (ExtEntry E) l m ∧ l.map Prod.fst = m.map fun p => decimal p.1.toNat
  | [], _ => ⟨[], rfl, List.Forall₂.nil, rfl⟩
  | p :: m, hc => by
    obtain ⟨l, e1, e2, e3⟩ := writeExtEntries_rt E h m (fun x hx => hc x (by simp [hx]))
    have hp := hc p (by simp)
    obtain ⟨bs, e4, e5⟩ := C14_roundtrip E.utf8 E.pc E.bc bwf h.box p.2 hp.1 hp.2.1 hp.2.2
    refine ⟨(decimal p.1.toNat, hexEnc bs) :: l, by rw [writeExtEntries, e4, Outcome.bind_ok, e1]; rfl, ?_, ?_⟩
    · refine List.Forall₂.cons ⟨p.1.toNat, bs, [], parseUint_decimal p.1.isLt, hexDec_hexEnc bs, ?_, ?_⟩ e2
      · have := e5 []
        rwa [List.append_nil] at this
      · rw [BitVec.ofNat_toNat, BitVec.setWidth_eq]
    · simp only [List.map_cons, e3]

theorem decimal_keys_ok {m : Extension G B} (h : m.Ok) : (m.map fun p => decimal p.1.toNat).Nodup := by
  unfold FMap.Ok at h
  rw [show (m.map fun p => decimal p.1.toNat) = (m.map Prod.fst).map (fun k : Byte => decimal k.toNat) from by
    simp [List.map_map, Function.comp_def]]
  exact h.map (fun a b hab => BitVec.eq_of_toNat_eq (decimal_inj hab))

theorem writeExt_rt (E : Sers G B T) {bwf : B → Prop} {twf : T → Prop} (h : GoodSers E bwf twf) (m : Extension G B)
    (hm : JsonExt E bwf m) : ∃ j, writeExt E m = .ok j ∧ readExt E j = .ok m := by
  obtain ⟨l, e1, e2, e3⟩ := writeExtEntries_rt E h m hm.consts
  refine ⟨.obj (l.map fun p => (p.1, Json.str p.2)), by unfold writeExt; rw [e1]; rfl, ?_⟩
  have hok : FMap.Ok l := by
    unfold FMap.Ok
    rw [e3]
    exact decimal_keys_ok hm.keys
  unfold readExt
  simp only []
  rw [(readStrMap_iff _ [] l).2 ⟨l, rfl, (FMap.insertList_nil hok).symm⟩, Outcome.bind_ok]
  exact (extOfStrMap_iff E l [] m).2 ⟨m, e2, (FMap.insertList_nil hm.keys).symm⟩

theorem readExt_spec (E : Sers G B T) {bwf : B → Prop} (hp : BoxParsed E.bc bwf) {j : Json} {m : Extension G B}
    (h : readExt E j = .ok m) : JsonExt E bwf m := by
  unfold readExt at h
  split at h
  · obtain ⟨sm, h1, h2⟩ := json_bind_ok.1 h
    obtain ⟨es, h3, h4⟩ := (extOfStrMap_iff E sm [] m).1 h2
    refine ⟨h4 ▸ insertList_ok es [] (by simp [FMap.Ok]), fun p hpm => ?_⟩
    rw [h4] at hpm
    rcases insertList_mem es [] _ hpm with hm | hm
    · simp at hm
    · obtain ⟨k, hk, e5⟩ := List.getElem_of_mem hm
      have hlen := h3.length_eq
      have := List.Forall₂.get h3 (i := k) (by omega) hk
      simp only [List.get_eq_getElem, e5] at this
      obtain ⟨i, b, rest, _, _, g3, _⟩ := this
      exact Constant.parsed_good E hp b p.2 rest g3
  · cases h

/-! ## Inputs -/

theorem ofBytes_toBytes {p : ProofBytes} (h : JsonProof p) : ProofBytes.ofBytes p.toBytes = p := by
  cases p with
  | empty => rfl
  | some b =>
    cases b with
    | nil => exact absurd rfl h
    | cons a b => rfl

theorem jsonProof_ofBytes (b : Bytes) : JsonProof (ProofBytes.ofBytes b) := by
  cases b with
  | nil => trivial
  | cons a b => exact List.cons_ne_nil a b

theorem writeProverResult_rt (E : Sers G B T) {bwf : B → Prop} {twf : T → Prop} (h : GoodSers E bwf twf)
    (p : ProverResult G B) (h1 : JsonProof p.proof) (h2 : JsonExt E bwf p.extension) :
    ∃ j, writeProverResult E p = .ok j ∧ readProverResult E j = .ok p := by
  obtain ⟨e, e1, e2⟩ := writeExt_rt E h p.extension h2
  refine ⟨_, by unfold writeProverResult; rw [e1, Outcome.bind_ok]; rfl, ?_⟩
  unfold readProverResult
  simp only []
  rw [show (req [kProofBytes] [(kProofBytes, Json.str (hexEnc p.proof.toBytes)), (kExtension, e)]) =
      .ok (.str (hexEnc p.proof.toBytes)) from rfl,
    show (req [kExtension] [(kProofBytes, Json.str (hexEnc p.proof.toBytes)), (kExtension, e)]) = .ok e from rfl]
  rw [Outcome.bind_ok, readHex_hex, Outcome.bind_ok, Outcome.bind_ok, e2, Outcome.bind_ok, ofBytes_toBytes h1]
  rfl

theorem readProverResult_spec (E : Sers G B T) {bwf : B → Prop} (hp : BoxParsed E.bc bwf) {j : Json}
    {p : ProverResult G B} (h : readProverResult E j = .ok p) : JsonProof p.proof ∧ JsonExt E bwf p.extension := by
  unfold readProverResult at h
  split at h
  · obtain ⟨b, h1, h2⟩ := json_bind_ok.1 h
    cases h2
    exact ⟨jsonProof_ofBytes b, by simp [FMap.Ok], by simp⟩
  · obtain ⟨b, h1, h2⟩ := json_bind_ok.1 h
    obtain ⟨e, h3, h4⟩ := json_bind_ok.1 h2
    obtain ⟨_, _, h5⟩ := json_bind_ok.1 h3
    cases h4
    exact ⟨jsonProof_ofBytes b, readExt_spec E hp h5⟩
  · cases h

theorem writeInput_rt (E : Sers G B T) {bwf : B → Prop} {twf : T → Prop} (h : GoodSers E bwf twf) (i : Input G B)
    (h1 : i.boxId.length = 32) (h2 : JsonProof i.proof.proof) (h3 : JsonExt E bwf i.proof.extension) :
    ∃ j, writeInput E i = .ok j ∧ readInput E j = .ok i := by
  obtain ⟨p, e1, e2⟩ := writeProverResult_rt E h i.proof h2 h3
  refine ⟨_, by unfold writeInput; rw [e1, Outcome.bind_ok]; rfl, ?_⟩
  unfold readInput
  simp only []
  rw [show (req [kBoxId, kId] [(kBoxId, Json.str (hexEnc i.boxId)), (kSpendingProof, p)]) =
      .ok (.str (hexEnc i.boxId)) from rfl,
    show (req [kSpendingProof] [(kBoxId, Json.str (hexEnc i.boxId)), (kSpendingProof, p)]) = .ok p from rfl]
  rw [Outcome.bind_ok, readDigest_hex h1, Outcome.bind_ok, Outcome.bind_ok, e2]
  rfl

theorem readInput_spec (E : Sers G B T) {bwf : B → Prop} (hp : BoxParsed E.bc bwf) {j : Json} {i : Input G B}
    (h : readInput E j = .ok i) : i.boxId.length = 32 ∧ JsonProof i.proof.proof ∧ JsonExt E bwf i.proof.extension := by
  unfold readInput at h
  split at h
  · obtain ⟨b, h1, h2⟩ := json_bind_ok.1 h
    obtain ⟨e, h3, h4⟩ := json_bind_ok.1 h2
    obtain ⟨_, _, h5⟩ := json_bind_ok.1 h3
    obtain ⟨_, _, h6⟩ := json_bind_ok.1 h1
    cases h4
    exact ⟨readDigest_len h6, readProverResult_spec E hp h5⟩
  · cases h

theorem writeUnsignedInput_rt (E : Sers G B T) {bwf : B → Prop} {twf : T → Prop} (h : GoodSers E bwf twf)
    (i : UnsignedInput G B) (h1 : i.boxId.length = 32) (h2 : JsonExt E bwf i.extension) :
    ∃ j, writeUnsignedInput E i = .ok j ∧ readUnsignedInput E j = .ok i := by
  obtain ⟨p, e1, e2⟩ := writeExt_rt E h i.extension h2
  refine ⟨_, by unfold writeUnsignedInput; rw [e1, Outcome.bind_ok]; rfl, ?_⟩
  unfold readUnsignedInput
  simp only []
  rw [show (req [kBoxId] [(kBoxId, Json.str (hexEnc i.boxId)), (kExtension, p)]) =
      .ok (.str (hexEnc i.boxId)) from rfl,
    show (req [kExtension] [(kBoxId, Json.str (hexEnc i.boxId)), (kExtension, p)]) = .ok p from rfl]
  rw [Outcome.bind_ok, readDigest_hex h1, Outcome.bind_ok, Outcome.bind_ok, e2]
  rfl

theorem readUnsignedInput_spec (E : Sers G B T) {bwf : B → Prop} (hp : BoxParsed E.bc bwf) {j : Json}
    {i : UnsignedInput G B} (h : readUnsignedInput E j = .ok i) : i.boxId.length = 32 ∧ JsonExt E bwf i.extension := by
  unfold readUnsignedInput at h
  split at h
  · obtain ⟨b, h1, h2⟩ := json_bind_ok.1 h
    obtain ⟨e, h3, h4⟩ := json_bind_ok.1 h2
    obtain ⟨_, _, h5⟩ := json_bind_ok.1 h3
    obtain ⟨_, _, h6⟩ := json_bind_ok.1 h1
    cases h4
    exact ⟨readDigest_len h6, readExt_spec E hp h5⟩
  · cases h

omit [DecidableEq G] in
theorem readDataInput_write {d : Bytes} (h : d.length = 32) : readDataInput (writeDataInput d) = .ok d := by
  show (req [kBoxId, kId] [(kBoxId, .str (hexEnc d))] >>= readDigest) = _
  rw [show req [kBoxId, kId] [(kBoxId, Json.str (hexEnc d))] = .ok (.str (hexEnc d)) from rfl, Outcome.bind_ok,
    readDigest_hex h]

omit [DecidableEq G] in
theorem readDataInputs_write {ds : Option (List Bytes)} (h : GoodData ds) :
    readArr readDataInput (.arr ((ds.getD []).map writeDataInput)) = .ok (ds.getD []) := by
  refine readArr_map (fun d hd => readDataInput_write ?_)
  cases ds with
  | none => simp at hd
  | some l => exact h.2.2 d hd

omit [DecidableEq G] in
theorem readArr_all {α : Type} {f : Json → Outcome α} {P : α → Prop} (hf : ∀ j a, f j = .ok a → P a) {j : Json}
    {l : List α} (h : readArr f j = .ok l) : ∀ a ∈ l, P a := by
  unfold readArr at h
  split at h
  · have := readArr_go_iff.1 h
    intro a ha
    obtain ⟨i, hi, e⟩ := List.getElem_of_mem ha
    have hlen := this.length_eq
    have := List.Forall₂.get this (i := i) (by omega) hi
    simp only [List.get_eq_getElem, e] at this
    exact hf _ _ this
  · cases h

omit [DecidableEq G] in
theorem readDataInput_len {j : Json} {d : Bytes} (h : readDataInput j = .ok d) : d.length = 32 := by
  unfold readDataInput at h
  split at h
  · obtain ⟨_, _, h⟩ := json_bind_ok.1 h
    exact readDigest_len h
  · cases h

/-! ## Transactions -/

theorem ioVec_ok {α : Type} {l : List α} (h : 1 ≤ l.length ∧ l.length ≤ 65535) : ioVec l = some l := by
  unfold ioVec; rw [if_pos h]

theorem ioVec_inv {α : Type} {l l' : List α} (h : ioVec l = some l') : l' = l ∧ 1 ≤ l.length ∧ l.length ≤ 65535 := by
  unfold ioVec at h
  split at h
  · cases h; exact ⟨rfl, by assumption⟩
  · cases h

theorem optIoVec_ok {ds : Option (List Bytes)} (h : GoodData ds) : optIoVec (ds.getD []) = some ds := by
  cases ds with
  | none => rfl
  | some ds =>
    obtain ⟨d1, d2, _⟩ := h
    unfold optIoVec ioVec
    cases ds with
    | nil => simp at d1
    | cons a ds => simp only [Option.getD_some, List.isEmpty_cons]; rw [if_neg (by simp), if_pos ⟨d1, d2⟩]; rfl

theorem optIoVec_inv {l : List Bytes} {ds : Option (List Bytes)} (h : optIoVec l = some ds)
    (hl : ∀ d ∈ l, d.length = 32) : GoodData ds ∧ ds.getD [] = l := by
  unfold optIoVec at h
  split at h
  · rename_i he
    cases h
    exact ⟨trivial, by simpa using he.symm⟩
  · obtain ⟨x, h1, h2⟩ := Option.map_eq_some_iff.1 h
    obtain ⟨rfl, h3⟩ := ioVec_inv h1
    cases h2
    exact ⟨⟨h3.1, h3.2, hl⟩, rfl⟩

theorem outputsFrom_json (E : Sers G B T) {bwf : B → Prop} {twf : T → Prop} {txId : Bytes} (hid : txId.length = 32) :
    ∀ (cands : List (BoxCand G B T)) (i : Nat) (l : List (EBox G B T)), outputsFrom E txId i cands = .ok l →
      (∀ c ∈ cands, JsonCand E bwf twf c) → (∀ b ∈ l, JsonBox E bwf twf b) ∧ l.map EBox.toCand = cands
  | [], i, l, h, _ => by
    simp only [outputsFrom, Outcome.ok.injEq] at h
    subst h
    exact ⟨by simp, rfl⟩
  | c :: cands, i, l, h, hc => by
    simp only [outputsFrom] at h
    obtain ⟨b, h1, h2⟩ := Outcome.bind_eq_ok.1 h
    obtain ⟨bs, h3, h4⟩ := Outcome.bind_eq_ok.1 h2
    simp only [Outcome.pure_eq, Outcome.ok.injEq] at h4
    subst h4
    obtain ⟨s1, s2, s3, s4⟩ := EBox.ofCand_spec E h1
    obtain ⟨g1, g2⟩ := outputsFrom_json E hid cands (i + 1) bs h3 (fun x hx => hc x (by simp [hx]))
    refine ⟨fun x hx => ?_, by simp only [List.map_cons, s1, g2]⟩
    rcases List.mem_cons.1 hx with rfl | hx
    · exact ⟨s1 ▸ hc c (by simp), s2 ▸ hid, s4⟩
    · exact g1 x hx

theorem calcTxId_len (E : Sers G B T) {t : Tx G B T} (h : t.calcId E = .ok t.txId) : t.txId.length = 32 := by
  unfold Tx.calcId at h
  obtain ⟨x, _, h2⟩ := Outcome.bind_eq_ok.1 h
  simp only [Outcome.pure_eq, Outcome.ok.injEq] at h2
  rw [← h2]
  exact E.H.len x

theorem writeTx_rt (E : Sers G B T) (tp : Bytes → Option T) {bwf : B → Prop} {twf twf' : T → Prop}
    (h : GoodSers E bwf twf') (ht : TreeText E tp twf) {ord : List (Text × Json) → List (Text × Json)} (ho : IsOrder ord)
    (t : Tx G B T) (hp : JsonParts E bwf twf t.inputs t.dataInputs t.cands)
    (hm : Tx.new E t.inputs t.dataInputs t.cands = .ok t) : ∃ j, writeTx E ord t = .ok j ∧ readTx E tp j = .ok t := by
  obtain ⟨_, _, _, s4, s5⟩ := Tx.new_spec E hm
  have hid := calcTxId_len E s4
  obtain ⟨g1, g2⟩ := outputsFrom_json E hid t.cands 0 t.outputs s5 hp.cands
  obtain ⟨is, e1, e2⟩ := writeMany_rt (f := writeInput E) (g := readInput E) t.inputs (fun i hi =>
    writeInput_rt E h i (hp.inputs i hi).1 (hp.inputs i hi).2.1 (hp.inputs i hi).2.2)
  obtain ⟨os, e3, e4⟩ := writeMany_rt (f := writeBox E ord) (g := readBox E tp) t.outputs (fun b hb =>
    writeBox_rt E tp h ht ho b (g1 b hb))
  refine ⟨.obj [(kId, .str (hexEnc t.txId)), (kInputs, .arr is),
    (kDataInputs, .arr ((t.dataInputs.getD []).map writeDataInput)), (kOutputs, .arr os)],
    by unfold writeTx; rw [e1, Outcome.bind_ok, e3, Outcome.bind_ok]; rfl, ?_⟩
  unfold readTx
  simp only []
  generalize ho : [(kId, Json.str (hexEnc t.txId)), (kInputs, .arr is),
    (kDataInputs, .arr ((t.dataInputs.getD []).map writeDataInput)), (kOutputs, .arr os)] = o
  rw [show req [kId] o = .ok (.str (hexEnc t.txId)) from by rw [← ho]; rfl,
    show req [kInputs] o = .ok (.arr is) from by rw [← ho]; rfl,
    show req [kDataInputs] o = .ok (.arr ((t.dataInputs.getD []).map writeDataInput)) from by rw [← ho]; rfl,
    show req [kOutputs] o = .ok (.arr os) from by rw [← ho]; rfl]
  rw [Outcome.bind_ok, readDigest_hex hid, Outcome.bind_ok, Outcome.bind_ok, e2, Outcome.bind_ok, Outcome.bind_ok,
    readDataInputs_write hp.dataInputs, Outcome.bind_ok, Outcome.bind_ok, e4, Outcome.bind_ok]
  unfold Tx.newFromVec
  rw [g2, ioVec_ok hp.inputsCount, optIoVec_ok hp.dataInputs, ioVec_ok hp.candsCount]
  simp only [ofOpt, Outcome.bind_ok, hm, if_true]

/-- What reading a transaction establishes. -/
theorem readTx_spec (E : Sers G B T) (tp : Bytes → Option T) {bwf : B → Prop} (hp : BoxParsed E.bc bwf) {o : List (Text × Json)}
    {t : Tx G B T} (h : readTx E tp (.obj o) = .ok t) :
    JsonParts E bwf (fun x => ∃ b, tp b = some x) t.inputs t.dataInputs t.cands ∧
    Tx.new E t.inputs t.dataInputs t.cands = .ok t ∧ (req [kId] o >>= readDigest) = .ok t.txId ∧
    (req [kInputs] o >>= readArr (readInput E)) = .ok t.inputs ∧
    (req [kDataInputs] o >>= readArr readDataInput) = .ok (t.dataInputs.getD []) ∧
    ∃ os, (req [kOutputs] o >>= readArr (readBox E tp)) = .ok os ∧ t.cands = os.map EBox.toCand := by
  unfold readTx at h
  simp only [] at h
  obtain ⟨id, h1, h⟩ := json_bind_ok.1 h
  obtain ⟨is, h2, h⟩ := json_bind_ok.1 h
  obtain ⟨ds, h3, h⟩ := json_bind_ok.1 h
  obtain ⟨os, h4, h⟩ := json_bind_ok.1 h
  obtain ⟨t', h5, h⟩ := json_bind_ok.1 h
  split at h
  · rename_i hid
    cases h
    unfold Tx.newFromVec at h5
    obtain ⟨i, gi, h5⟩ := json_bind_ok.1 h5
    obtain ⟨d, g2, h5⟩ := json_bind_ok.1 h5
    obtain ⟨c, gc, h5⟩ := json_bind_ok.1 h5
    obtain ⟨rfl, g1⟩ := ioVec_inv (json_ofOpt.1 gi)
    obtain ⟨_, _, h2'⟩ := json_bind_ok.1 h2
    obtain ⟨_, _, h3'⟩ := json_bind_ok.1 h3
    obtain ⟨_, _, h4'⟩ := json_bind_ok.1 h4
    obtain ⟨k1, k2⟩ := optIoVec_inv (json_ofOpt.1 g2) (readArr_all (P := fun d => d.length = 32)
      (fun j a => readDataInput_len) h3')
    obtain ⟨rfl, g3⟩ := ioVec_inv (json_ofOpt.1 gc)
    obtain ⟨s1, s2, s3, _, _⟩ := Tx.new_spec E h5
    have hi := readArr_all (fun j a => readInput_spec E hp) h2'
    have hb := readArr_all (fun j a => readBox_spec E tp hp) h4'
    refine ⟨⟨s1 ▸ g1, s1 ▸ hi, s2 ▸ k1, s3 ▸ g3, ?_⟩, by rw [s1, s2, s3]; exact h5, by rw [h1, hid], by rw [h2, s1],
      by rw [h3, s2, k2], os, h4, s3⟩
    rw [s3]
    intro c hc
    obtain ⟨b, hb', rfl⟩ := List.mem_map.1 hc
    exact (hb b hb').cand
  · cases h

theorem UnsignedTransaction.new_inv (E : Sers G B T) {inputs : List (UnsignedInput G B)} {dataInputs : Option (List Bytes)}
    {cands : List (BoxCand G B T)} {u : UnsignedTransaction G B T}
    (h : UnsignedTransaction.new E inputs dataInputs cands = .ok u) :
    u.inputs = inputs ∧ u.dataInputs = dataInputs ∧ u.cands = cands := by
  unfold UnsignedTransaction.new at h
  obtain ⟨b, _, h⟩ := json_bind_ok.1 h
  cases h
  exact ⟨rfl, rfl, rfl⟩

theorem writeUnsignedTx_rt (E : Sers G B T) (tp : Bytes → Option T) {bwf : B → Prop} {twf twf' : T → Prop}
    (h : GoodSers E bwf twf') (ht : TreeText E tp twf) {ord : List (Text × Json) → List (Text × Json)} (ho : IsOrder ord)
    (u : UnsignedTransaction G B T) (h1 : 1 ≤ u.inputs.length ∧ u.inputs.length ≤ 65535)
    (h2 : ∀ i ∈ u.inputs, i.boxId.length = 32 ∧ JsonExt E bwf i.extension) (h3 : GoodData u.dataInputs)
    (h4 : 1 ≤ u.cands.length ∧ u.cands.length ≤ 65535) (h5 : ∀ c ∈ u.cands, JsonCand E bwf twf c)
    (hm : UnsignedTransaction.new E u.inputs u.dataInputs u.cands = .ok u) :
    ∃ j, writeUnsignedTx E ord u = .ok j ∧ readUnsignedTx E tp j = .ok u := by
  obtain ⟨is, e1, e2⟩ := writeMany_rt (f := writeUnsignedInput E) (g := readUnsignedInput E) u.inputs (fun i hi =>
    writeUnsignedInput_rt E h i (h2 i hi).1 (h2 i hi).2)
  obtain ⟨os, e3, e4⟩ := writeMany_rt (f := writeCand E ord) (g := readCand E tp) u.cands (fun b hb =>
    writeCand_rt E tp h ht ho b (h5 b hb))
  refine ⟨.obj [(kInputs, .arr is),
    (kDataInputs, .arr ((u.dataInputs.getD []).map writeDataInput)), (kOutputs, .arr os)],
    by unfold writeUnsignedTx; rw [e1, Outcome.bind_ok, e3, Outcome.bind_ok]; rfl, ?_⟩
  unfold readUnsignedTx
  simp only []
  generalize ho : [(kInputs, Json.arr is),
    (kDataInputs, .arr ((u.dataInputs.getD []).map writeDataInput)), (kOutputs, .arr os)] = o
  rw [show req [kInputs] o = .ok (.arr is) from by rw [← ho]; rfl,
    show req [kDataInputs] o = .ok (.arr ((u.dataInputs.getD []).map writeDataInput)) from by rw [← ho]; rfl,
    show req [kOutputs] o = .ok (.arr os) from by rw [← ho]; rfl]
  rw [Outcome.bind_ok, e2, Outcome.bind_ok, Outcome.bind_ok,
    readDataInputs_write h3, Outcome.bind_ok, Outcome.bind_ok, e4, Outcome.bind_ok]
  unfold UnsignedTransaction.newFromVec
  rw [ioVec_ok h1, optIoVec_ok h3, ioVec_ok h4]
  simp only [ofOpt, Outcome.bind_ok, hm]

theorem readUnsignedTx_spec (E : Sers G B T) (tp : Bytes → Option T) {bwf : B → Prop} (hp : BoxParsed E.bc bwf) {j : Json}
    {u : UnsignedTransaction G B T} (h : readUnsignedTx E tp j = .ok u) :
    (1 ≤ u.inputs.length ∧ u.inputs.length ≤ 65535) ∧
    (∀ i ∈ u.inputs, i.boxId.length = 32 ∧ JsonExt E bwf i.extension) ∧ GoodData u.dataInputs ∧
    (1 ≤ u.cands.length ∧ u.cands.length ≤ 65535) ∧
    (∀ c ∈ u.cands, JsonCand E bwf (fun x => ∃ b, tp b = some x) c) ∧
    UnsignedTransaction.new E u.inputs u.dataInputs u.cands = .ok u := by
  unfold readUnsignedTx at h
  split at h
  · obtain ⟨is, h2, h⟩ := json_bind_ok.1 h
    obtain ⟨ds, h3, h⟩ := json_bind_ok.1 h
    obtain ⟨os, h4, h⟩ := json_bind_ok.1 h
    unfold UnsignedTransaction.newFromVec at h
    obtain ⟨i, gi, h⟩ := json_bind_ok.1 h
    obtain ⟨d, g2, h⟩ := json_bind_ok.1 h
    obtain ⟨c, gc, hn⟩ := json_bind_ok.1 h
    obtain ⟨rfl, g1⟩ := ioVec_inv (json_ofOpt.1 gi)
    obtain ⟨_, _, h2'⟩ := json_bind_ok.1 h2
    obtain ⟨_, _, h3'⟩ := json_bind_ok.1 h3
    obtain ⟨_, _, h4'⟩ := json_bind_ok.1 h4
    obtain ⟨k1, k2⟩ := optIoVec_inv (json_ofOpt.1 g2) (readArr_all (P := fun d => d.length = 32)
      (fun j a => readDataInput_len) h3')
    obtain ⟨rfl, g3⟩ := ioVec_inv (json_ofOpt.1 gc)
    obtain ⟨s1, s2, s3⟩ := UnsignedTransaction.new_inv E hn
    have hi := readArr_all (fun j a => readUnsignedInput_spec E hp) h2'
    have hb : ∀ x ∈ c, JsonCand E bwf (fun y => ∃ b, tp b = some y) x := by
      refine readArr_all (f := readCand E tp) (fun j a ha => ?_) h4'
      unfold readCand at ha
      split at ha
      · exact readCandFields_spec E tp hp ha
      · cases ha
    exact ⟨s1 ▸ g1, s1 ▸ hi, s2 ▸ k1, s3 ▸ g3, s3 ▸ hb, by rw [s1, s2, s3]; exact hn⟩
  · cases h

end
end Verif
