import Verif.Proofs.Box

set_option linter.unusedSimpArgs false
set_option linter.unusedVariables false

/-!
# Transactions: round trip, what the id commits to, output boxes
-/

namespace Verif
open Spec

section
variable {G B T : Type} [DecidableEq G]

theorem Input.rt (E : Sers G B T) {bwf : B → Prop} {twf : T → Prop} (h : GoodSers E bwf twf) :
    Rto (GoodInput E.utf8 bwf) (Input.ser E) (Input.parse E) := by
  intro i hi
  obtain ⟨bs, e, hp⟩ := ProverResult.rt E h i.proof ⟨hi.proof, hi.ext⟩
  refine ⟨i.boxId ++ bs, by unfold Input.ser; rw [e]; rfl, fun rest => ?_⟩
  unfold Input.parse
  rw [List.append_assoc, Parser.bind_some (readExact_append' _ _ hi.boxId), Parser.bind_some (hp rest)]
  rfl

theorem id32_rt : Rto (fun d : Bytes => d.length = 32) Outcome.ok (readExact 32) :=
  fun d hd => ⟨d, rfl, fun rest => readExact_append' _ _ hd⟩

theorem distinctTokenIds_len (cands : List (BoxCand G B T)) (n : Nat)
    (h : ∀ c ∈ cands, (c.tokens.getD []).length ≤ n) : (distinctTokenIds cands).length ≤ cands.length * n := by
  refine Nat.le_trans (IdSet.length_ofList _) ?_
  induction cands with
  | nil => simp
  | cons c l ih =>
    have h1 := h c (by simp)
    have h2 := ih (fun d hd => h d (by simp [hd]))
    simp only [List.flatMap_cons, List.length_append, List.length_map, List.length_cons, Nat.add_mul, Nat.one_mul]
    omega

theorem mem_distinctTokenIds (cands : List (BoxCand G B T)) (x : TokenId) :
    x ∈ distinctTokenIds cands ↔ ∃ c ∈ cands, ∃ t ∈ c.tokens.getD [], t.1 = x := by
  unfold distinctTokenIds
  rw [IdSet.mem_ofList]
  simp

/-- The writer of the parts is defined on good parts, and reading gives the parts back. -/
theorem txParts_rt (E : Sers G B T) {bwf : B → Prop} {twf : T → Prop} (h : GoodSers E bwf twf)
    (inputs : List (Input G B)) (dataInputs : Option (List Bytes)) (cands : List (BoxCand G B T))
    (hg : GoodParts E.utf8 bwf twf inputs dataInputs cands) :
    ∃ bs, serTxParts E inputs dataInputs cands = .ok bs ∧
      ∀ rest, Tx.parse E (bs ++ rest) =
        (Parser.ofOption (Tx.newFromVec E inputs (dataInputs.getD []) cands).toOption) rest := by
  obtain ⟨bi, ei, pi⟩ := serMany_rt (Input.rt E h) inputs hg.inputs
  have hd : ∃ bd, serDataInputs dataInputs = .ok bd ∧ ∀ {β : Type} (f : List Bytes → Parser β) rest,
      (getU16 >>= fun nd => replicateP nd.toNat (readExact 32) >>= f) (bd ++ rest) = f (dataInputs.getD []) rest := by
    cases hdi : dataInputs with
    | none => exact ⟨putU16 0, rfl, fun f rest => by rw [Parser.bind_some (getU16_put _ _)]; rfl⟩
    | some ds =>
      have hg' := hg.dataInputs
      rw [hdi] at hg'
      obtain ⟨d1, d2, d3⟩ := hg'
      obtain ⟨bd, ed, pd⟩ := serMany_rt id32_rt ds d3
      refine ⟨putU16 (BitVec.ofNat 16 ds.length) ++ bd, ?_, fun f rest => ?_⟩
      · unfold serDataInputs
        simp only [putCount16_ok d2, Outcome.bind_ok]
        rw [show serDataInput = Outcome.ok from rfl, ed]
        rfl
      · rw [List.append_assoc, Parser.bind_some (getU16_put _ _), toNat_ofNat16 d2, Parser.bind_some (pd _)]
        rfl
  obtain ⟨bd, ed, pd⟩ := hd
  have hn : (distinctTokenIds cands).length ≤ 65535 * 122 := by
    refine Nat.le_trans (distinctTokenIds_len cands 122 (fun c hc => (goodTokens_list (hg.cands c hc).tokens).1)) ?_
    have := hg.candsCount.2
    omega
  have h32 : ∀ x ∈ distinctTokenIds cands, x.length = 32 := by
    intro x hx
    obtain ⟨c, hc, t, ht, rfl⟩ := (mem_distinctTokenIds cands x).1 hx
    exact ((goodTokens_list (hg.cands c hc).tokens).2.1 t ht).1
  obtain ⟨bt, et, pt⟩ := serMany_rt id32_rt (distinctTokenIds cands) h32
  obtain ⟨bo, eo, po⟩ := serMany_rt (P := fun c => GoodCand E.utf8 bwf twf c ∧
      Covers (some (distinctTokenIds cands)) (c.tokens.getD []))
    (ser := BoxCand.serWith E (some (distinctTokenIds cands)))
    (fun c hc => BoxCand.rtWith E h (some (distinctTokenIds cands)) c hc.1 hc.2) cands
    (fun c hc => ⟨hg.cands c hc, by omega, fun t ht => (mem_distinctTokenIds cands t.1).2 ⟨c, hc, t, ht, rfl⟩⟩)
  refine ⟨_, by
    unfold serTxParts
    simp only [putCount16_ok hg.inputsCount.2, putCount16_ok hg.candsCount.2, ei, ed, et, eo, Outcome.bind_ok,
      putCount32_ok (n := (distinctTokenIds cands).length) (by omega)]
    rfl, fun rest => ?_⟩
  unfold Tx.parse
  simp only [List.append_assoc]
  rw [Parser.bind_some (getU16_put _ _), toNat_ofNat16 hg.inputsCount.2, Parser.bind_some (pi _), pd]
  have hids : parseIds (putU32 (BitVec.ofNat 32 (distinctTokenIds cands).length) ++ (bt ++
      (putU16 (BitVec.ofNat 16 cands.length) ++ (bo ++ rest)))) = some (distinctTokenIds cands,
      putU16 (BitVec.ofNat 16 cands.length) ++ (bo ++ rest)) := by
    unfold parseIds
    rw [Parser.bind_some (getU32_put _ _), toNat_ofNat32 (by omega),
      if_neg (by unfold maxOutputsCount maxTokensCount; omega), Parser.bind_some (pt _),
      IdSet.ofList_nodup (show (distinctTokenIds cands).Nodup from IdSet.nodup_ofList _)]
    rfl
  rw [Parser.bind_some hids, Parser.bind_some (getU16_put _ _), toNat_ofNat16 hg.candsCount.2, Parser.bind_some (po _)]

/-- Turning a candidate into a box never fails for good candidates. -/
theorem EBox.ofCand_ok (E : Sers G B T) {bwf : B → Prop} {twf : T → Prop} (h : GoodSers E bwf twf)
    (c : BoxCand G B T) (hc : GoodCand E.utf8 bwf twf c) (txId : Bytes) (i : BitVec 16) :
    ∃ b, EBox.ofCand E c txId i = .ok b := by
  obtain ⟨bs, e, _⟩ := BoxCand.rtWith E h none c hc trivial
  unfold EBox.ofCand EBox.calcId
  simp only [EBox.ser_eq, EBox.toCand, BoxCand.ser, e, Outcome.bind_ok, Outcome.pure_eq]
  exact ⟨_, rfl⟩

/-- What a box made from a candidate looks like. -/
theorem EBox.ofCand_spec (E : Sers G B T) {c : BoxCand G B T} {txId : Bytes} {i : BitVec 16} {b : EBox G B T}
    (h : EBox.ofCand E c txId i = .ok b) :
    b.toCand = c ∧ b.txId = txId ∧ b.index = i ∧ b.calcId E = .ok b.boxId := by
  unfold EBox.ofCand at h
  obtain ⟨id, h1, h2⟩ := Outcome.bind_eq_ok.1 h
  simp only [Outcome.pure_eq, Outcome.ok.injEq] at h2
  subst h2
  refine ⟨rfl, rfl, rfl, ?_⟩
  unfold EBox.calcId at h1 ⊢
  simp only [EBox.ser_eq, EBox.toCand] at h1 ⊢
  exact h1

theorem outputsFrom_ok (E : Sers G B T) {bwf : B → Prop} {twf : T → Prop} (h : GoodSers E bwf twf) (txId : Bytes) :
    ∀ (cands : List (BoxCand G B T)) (i : Nat), (∀ c ∈ cands, GoodCand E.utf8 bwf twf c) →
      ∃ l, outputsFrom E txId i cands = .ok l
  | [], _, _ => ⟨[], rfl⟩
  | c :: l, i, hc => by
    obtain ⟨b, eb⟩ := EBox.ofCand_ok E h c (hc c (by simp)) txId (BitVec.ofNat 16 i)
    obtain ⟨bs, es⟩ := outputsFrom_ok E h txId l (i + 1) (fun d hd => hc d (by simp [hd]))
    exact ⟨b :: bs, by simp only [outputsFrom, eb, es, Outcome.bind_ok]; rfl⟩

theorem outputsFrom_spec (E : Sers G B T) (txId : Bytes) :
    ∀ (cands : List (BoxCand G B T)) (i : Nat) (l : List (EBox G B T)), outputsFrom E txId i cands = .ok l →
      l.length = cands.length ∧ ∀ (j : Nat) (c : BoxCand G B T), cands[j]? = some c →
        ∃ b, l[j]? = some b ∧ EBox.ofCand E c txId (BitVec.ofNat 16 (i + j)) = .ok b
  | [], i, l, h => by
    simp only [outputsFrom, Outcome.ok.injEq] at h
    subst h
    exact ⟨rfl, by simp⟩
  | c :: cands, i, l, h => by
    simp only [outputsFrom] at h
    obtain ⟨b, h1, h2⟩ := Outcome.bind_eq_ok.1 h
    obtain ⟨bs, h3, h4⟩ := Outcome.bind_eq_ok.1 h2
    simp only [Outcome.pure_eq, Outcome.ok.injEq] at h4
    subst h4
    obtain ⟨g1, g2⟩ := outputsFrom_spec E txId cands (i + 1) bs h3
    refine ⟨by simp [g1], fun j d hj => ?_⟩
    cases j with
    | zero =>
      simp only [List.getElem?_cons_zero, Option.some.injEq] at hj
      subst hj
      exact ⟨b, rfl, h1⟩
    | succ j =>
      rw [List.getElem?_cons_succ] at hj
      obtain ⟨b', e1, e2⟩ := g2 j d hj
      refine ⟨b', by rw [List.getElem?_cons_succ]; exact e1, ?_⟩
      rw [show i + (j + 1) = i + 1 + j by omega]
      exact e2

theorem Tx.bytesToSign_eq (E : Sers G B T) (t : Tx G B T) :
    t.bytesToSign E = serTxParts E (t.inputs.map Input.toSign) t.dataInputs t.cands := rfl

/-- Inversion of the constructor. -/
theorem Tx.new_spec (E : Sers G B T) {inputs : List (Input G B)} {dataInputs : Option (List Bytes)}
    {cands : List (BoxCand G B T)} {t : Tx G B T} (h : Tx.new E inputs dataInputs cands = .ok t) :
    t.inputs = inputs ∧ t.dataInputs = dataInputs ∧ t.cands = cands ∧ t.calcId E = .ok t.txId ∧
      outputsFrom E t.txId 0 cands = .ok t.outputs := by
  unfold Tx.new at h
  obtain ⟨o0, h1, h2⟩ := Outcome.bind_eq_ok.1 h
  obtain ⟨id, h3, h4⟩ := Outcome.bind_eq_ok.1 h2
  obtain ⟨o, h5, h6⟩ := Outcome.bind_eq_ok.1 h4
  simp only [Outcome.pure_eq, Outcome.ok.injEq] at h6
  subst h6
  refine ⟨rfl, rfl, rfl, ?_, h5⟩
  unfold Tx.calcId at h3 ⊢
  rw [Tx.bytesToSign_eq] at h3 ⊢
  exact h3

theorem goodParts_toSign {utf8 : Bytes → Bool} {bwf : B → Prop} {twf : T → Prop} {inputs : List (Input G B)}
    {dataInputs : Option (List Bytes)} {cands : List (BoxCand G B T)}
    (hg : GoodParts utf8 bwf twf inputs dataInputs cands) :
    GoodParts utf8 bwf twf (inputs.map Input.toSign) dataInputs cands where
  inputsCount := by simpa using hg.inputsCount
  inputs := by
    intro i hi
    obtain ⟨j, hj, rfl⟩ := List.mem_map.1 hi
    have := hg.inputs j hj
    exact ⟨this.boxId, trivial, this.ext⟩
  dataInputs := hg.dataInputs
  candsCount := hg.candsCount
  cands := hg.cands

/-- The constructor is total on good parts. -/
theorem Tx.new_ok (E : Sers G B T) {bwf : B → Prop} {twf : T → Prop} (h : GoodSers E bwf twf)
    {inputs : List (Input G B)} {dataInputs : Option (List Bytes)} {cands : List (BoxCand G B T)}
    (hg : GoodParts E.utf8 bwf twf inputs dataInputs cands) : ∃ t, Tx.new E inputs dataInputs cands = .ok t := by
  unfold Tx.new
  obtain ⟨o0, e0⟩ := outputsFrom_ok E h (List.replicate 32 0) cands 0 hg.cands
  obtain ⟨bs, eb, _⟩ := txParts_rt E h _ _ _ (goodParts_toSign hg)
  obtain ⟨o, eo⟩ := outputsFrom_ok E h (E.H bs) cands 0 hg.cands
  simp only [e0, Outcome.bind_ok, Tx.calcId, Tx.bytesToSign_eq, eb, Outcome.pure_eq, eo]
  exact ⟨_, rfl⟩

theorem newFromVec_good (E : Sers G B T) {utf8 : Bytes → Bool} {bwf : B → Prop} {twf : T → Prop} {inputs : List (Input G B)}
    {dataInputs : Option (List Bytes)} {cands : List (BoxCand G B T)}
    (hg : GoodParts utf8 bwf twf inputs dataInputs cands) :
    Tx.newFromVec E inputs (dataInputs.getD []) cands = Tx.new E inputs dataInputs cands := by
  unfold Tx.newFromVec
  have e1 : ioVec inputs = some inputs := by unfold ioVec; rw [if_pos hg.inputsCount]
  have e2 : ioVec cands = some cands := by unfold ioVec; rw [if_pos hg.candsCount]
  have e3 : optIoVec (dataInputs.getD []) = some dataInputs := by
    have := hg.dataInputs
    cases dataInputs with
    | none => rfl
    | some ds =>
      obtain ⟨d1, d2, _⟩ := this
      unfold optIoVec ioVec
      cases ds with
      | nil => simp at d1
      | cons a ds => simp only [Option.getD_some, List.isEmpty_cons]; rw [if_neg (by simp), if_pos ⟨d1, d2⟩]; rfl
  rw [e1, e2, e3]
  rfl

theorem Tx.rt (E : Sers G B T) {bwf : B → Prop} {twf : T → Prop} (h : GoodSers E bwf twf) :
    Rto (GoodTx E bwf twf) (Tx.ser E) (Tx.parse E) := by
  intro t ht
  obtain ⟨bs, e, hp⟩ := txParts_rt E h _ _ _ ht.parts
  refine ⟨bs, e, fun rest => ?_⟩
  rw [hp, newFromVec_good E ht.parts, ht.made]
  rfl

/-- The writer of the parts is injective on good parts. -/
theorem txParts_inj (E : Sers G B T) {bwf : B → Prop} {twf : T → Prop} (h : GoodSers E bwf twf)
    {i1 i2 : List (Input G B)} {d1 d2 : Option (List Bytes)} {c1 c2 : List (BoxCand G B T)} {bs : Bytes}
    (g1 : GoodParts E.utf8 bwf twf i1 d1 c1) (g2 : GoodParts E.utf8 bwf twf i2 d2 c2)
    (e1 : serTxParts E i1 d1 c1 = .ok bs) (e2 : serTxParts E i2 d2 c2 = .ok bs) :
    i1 = i2 ∧ d1 = d2 ∧ c1 = c2 := by
  obtain ⟨b1, f1, p1⟩ := txParts_rt E h _ _ _ g1
  obtain ⟨b2, f2, p2⟩ := txParts_rt E h _ _ _ g2
  rw [e1] at f1; rw [e2] at f2
  cases f1; cases f2
  have q := p1 []
  rw [p2 [], newFromVec_good E g1, newFromVec_good E g2] at q
  obtain ⟨t1, n1⟩ := Tx.new_ok E h g1
  obtain ⟨t2, n2⟩ := Tx.new_ok E h g2
  rw [n1, n2] at q
  have : t2 = t1 := by
    simp only [Outcome.toOption, Parser.ofOption, Option.some.injEq] at q
    exact (Prod.mk.inj q).1
  subst this
  have s1 := Tx.new_spec E n1
  have s2 := Tx.new_spec E n2
  exact ⟨s1.1.symm.trans s2.1, s1.2.1.symm.trans s2.2.1, s1.2.2.1.symm.trans s2.2.2.1⟩

theorem map_toSign_eq {i1 i2 : List (Input G B)} :
    i1.map Input.toSign = i2.map Input.toSign ↔
      i1.map (fun i => (i.boxId, i.proof.extension)) = i2.map (fun i => (i.boxId, i.proof.extension)) := by
  induction i1 generalizing i2 with
  | nil => cases i2 <;> simp
  | cons a l ih =>
    cases i2 with
    | nil => simp
    | cons b m =>
      simp only [List.map_cons, List.cons.injEq, ih, Input.toSign, Input.mk.injEq, ProverResult.mk.injEq, true_and,
        Prod.mk.injEq]

/-! ## What a parsed transaction satisfies -/

theorem getToken_parsed (ids : Option IdSet) (h : ∀ s, ids = some s → ∀ x ∈ s, x.length = 32) :
    Post GoodToken (getToken ids) := by
  unfold getToken
  refine Post.bind (Q := fun x => x.length = 32) ?_ (fun id hid => Post.bind Post.top (fun a _ =>
    Post.bind (Q := fun v => 1 ≤ v ∧ v ≤ 2 ^ 63 - 1) (Post.ofOption ?_) (fun v hv => Post.pure ⟨hid, hv⟩)))
  · cases ids with
    | none => exact Post.readExact 32
    | some s =>
      unfold getTokenId
      refine Post.bind Post.top (fun i _ => Post.ofOption (fun x hx => ?_))
      exact h s rfl x (List.mem_of_getElem? hx)
  · intro v hv
    unfold TokenAmount.tryFromU64 TokenAmount.minRaw TokenAmount.maxRaw at hv
    split at hv
    · rename_i hc
      simp only [Option.some.injEq] at hv
      subst hv
      exact hc
    · cases hv

theorem boxTokensOf_good {l : List Token} {tk : Option (List Token)} (h : boxTokensOf l = some tk)
    (hl : ∀ t ∈ l, GoodToken t) : GoodTokens tk := by
  unfold boxTokensOf at h
  split at h
  · simp only [Option.some.injEq] at h; subst h; trivial
  · rename_i hne
    split at h
    · rename_i hle
      simp only [Option.some.injEq] at h; subst h
      refine ⟨?_, hle, hl⟩
      cases l with
      | nil => simp at hne
      | cons a l => simp
    · cases h

theorem BoxValue.parsed : Post (fun v => 10800 ≤ v ∧ v ≤ 2 ^ 63 - 1) BoxValue.parse := by
  unfold BoxValue.parse
  refine Post.bind Post.top (fun a _ => Post.ofOption (fun v hv => ?_))
  unfold BoxValue.tryFromU64 BoxValue.withinBounds BoxValue.minRaw BoxValue.maxRaw BoxValue.minValuePerBoxByte
    BoxValue.minBoxSizeBytes at hv
  split at hv
  · rename_i hc
    simp only [ge_iff_le, Bool.and_eq_true, decide_eq_true_eq] at hc
    simp only [Option.some.injEq] at hv
    subst hv
    omega
  · cases hv

theorem parseBoxWith_parsed (E : Sers G B T) {bwf : B → Prop} {twf : T → Prop} (hb : BoxParsed E.bc bwf)
    (ht : Post twf E.tc.parse) (ids : Option IdSet) (h : ∀ s, ids = some s → ∀ x ∈ s, x.length = 32) :
    Post (GoodCand E.utf8 bwf twf) (parseBoxWith E ids) := by
  unfold parseBoxWith
  refine Post.bind BoxValue.parsed (fun v hv => Post.bind ht (fun tree htree => Post.bind Post.top (fun hh _ =>
    Post.bind Post.top (fun n _ => Post.bind (Post.replicateP (getToken_parsed ids h) _) (fun l hl =>
      Post.bind (Q := GoodTokens) (Post.ofOption (fun tk htk => boxTokensOf_good htk hl.2)) (fun tk htk =>
        Post.bind (Regs.parsed E hb) (fun rs hrs => Post.pure ⟨hv, htree, htk, hrs⟩)))))))

theorem EBox.parsed (E : Sers G B T) {bwf : B → Prop} {twf : T → Prop} (hb : BoxParsed E.bc bwf)
    (ht : Post twf E.tc.parse) : Post (GoodBox E bwf twf) (EBox.parse E) := by
  unfold EBox.parse
  refine Post.bind (parseBoxWith_parsed E hb ht none (by simp)) (fun c hc => Post.bind (Post.readExact 32)
    (fun id hid => Post.bind Post.top (fun i _ => Post.ofOption (fun b hbb => ?_))))
  have : EBox.ofCand E c id i = .ok b := by
    cases e : EBox.ofCand E c id i with
    | ok x => rw [e] at hbb; simp only [Outcome.toOption, Option.some.injEq] at hbb; rw [hbb]
    | err => rw [e] at hbb; cases hbb
    | panic => rw [e] at hbb; cases hbb
  obtain ⟨s1, s2, s3, s4⟩ := EBox.ofCand_spec E this
  exact ⟨s1 ▸ hc, s2 ▸ hid, s4⟩

theorem Constant.parsed_good (E : Sers G B T) {bwf : B → Prop} (hb : BoxParsed E.bc bwf) :
    Post (GoodConst E.utf8 bwf) (Constant.parse E.utf8 E.pc E.bc : Parser (Constant G B)) := by
  unfold Constant.parse
  refine Post.bind Post.top (fun tag _ => ?_)
  unfold Constant.parseCode
  refine Post.bind (SType.post_parseCode E.utf8 (SType.parsed_good E.utf8) tag) (fun t ht => ?_)
  exact Post.bind (Literal.parsed E.pc E.bc bwf hb t) (fun v hv => Post.pure ⟨ht.1, ht.2, hv⟩)

theorem FMap.length_insert_le {κ ν : Type} [DecidableEq κ] : ∀ (m : FMap κ ν) (k : κ) (v : ν),
    (FMap.insert m k v).length ≤ m.length + 1
  | [], _, _ => by simp [FMap.insert]
  | (k', v') :: m, k, v => by
    rw [FMap.insert]
    split
    · simp
    · have := FMap.length_insert_le m k v
      simp only [List.length_cons]
      omega

theorem FMap.mem_insert {κ ν : Type} [DecidableEq κ] : ∀ (m : FMap κ ν) (k : κ) (v : ν) (p : κ × ν),
    p ∈ FMap.insert m k v → p = (k, v) ∨ p ∈ m
  | [], k, v, p, h => by
    simp [FMap.insert] at h
    exact Or.inl h
  | (k', v') :: m, k, v, p, h => by
    rw [FMap.insert] at h
    split at h
    · rcases List.mem_cons.1 h with h | h
      · exact Or.inl h
      · exact Or.inr (by simp [h])
    · rcases List.mem_cons.1 h with h | h
      · exact Or.inr (by simp [h])
      · rcases FMap.mem_insert m k v p h with h | h
        · exact Or.inl h
        · exact Or.inr (by simp [h])

theorem Extension.insertAll_good {P : Constant G B → Prop} : ∀ (l : List (Byte × Constant G B)) (m : Extension G B),
    m.Ok → (∀ p ∈ m, P p.2) → (∀ p ∈ l, P p.2) →
      (Extension.insertAll m l).Ok ∧ (Extension.insertAll m l).length ≤ m.length + l.length ∧
      ∀ p ∈ Extension.insertAll m l, P p.2
  | [], m, h1, h2, _ => ⟨h1, by simp [Extension.insertAll], h2⟩
  | p :: l, m, h1, h2, h3 => by
    rw [Extension.insertAll]
    have hlen := FMap.length_insert_le m p.1 p.2
    obtain ⟨g1, g2, g3⟩ := insertAll_good l (m.insert p.1 p.2) (h1.insert p.1 p.2)
      (fun q hq => by
        rcases FMap.mem_insert m p.1 p.2 q hq with rfl | hq
        · exact h3 p (by simp)
        · exact h2 q hq)
      (fun q hq => h3 q (by simp [hq]))
    refine ⟨g1, ?_, g3⟩
    simp only [List.length_cons]
    omega

theorem Extension.parsed (E : Sers G B T) {bwf : B → Prop} (hb : BoxParsed E.bc bwf) :
    Post (GoodExt E.utf8 bwf) (Extension.parse E) := by
  unfold Extension.parse
  refine Post.bind Post.top (fun n _ => Post.bind (Post.replicateP (Q := fun p => GoodConst E.utf8 bwf p.2) ?_ _)
    (fun l hl => Post.pure ?_))
  · unfold Extension.getEntry
    exact Post.bind Post.top (fun i _ => Post.bind (Constant.parsed_good E hb) (fun c hc => Post.pure hc))
  · obtain ⟨g1, g2, g3⟩ := Extension.insertAll_good (P := GoodConst E.utf8 bwf) l [] (by simp [FMap.Ok]) (by simp) hl.2
    refine ⟨g1, ?_, g3⟩
    have := n.isLt
    have := hl.1
    simp only [List.length_nil, Nat.zero_add] at g2
    omega

theorem ProofBytes.parsed : Post GoodProof ProofBytes.parse := by
  unfold ProofBytes.parse
  refine Post.bind Post.top (fun n _ => Post.ite (fun _ => Post.pure trivial) (fun hn => Post.bind (Post.readExact _)
    (fun b hb => Post.pure ?_)))
  have h1 := n.isLt
  have h2 : n.toNat ≠ 0 := fun e => hn (BitVec.eq_of_toNat_eq (by simpa using e))
  exact ⟨by omega, by omega⟩

theorem Tx.parsed (E : Sers G B T) {bwf : B → Prop} {twf : T → Prop} (hb : BoxParsed E.bc bwf)
    (ht : Post twf E.tc.parse) : Post (GoodTx E bwf twf) (Tx.parse E) := by
  unfold Tx.parse
  refine Post.bind Post.top (fun ni _ => Post.bind (Post.replicateP (Q := GoodInput E.utf8 bwf) ?_ _) (fun is his =>
    Post.bind Post.top (fun nd _ => Post.bind (Post.replicateP (Post.readExact 32) _) (fun ds hds =>
      Post.bind (Q := fun s => ∀ x ∈ s, x.length = 32) ?_ (fun ids hids => Post.bind Post.top (fun no _ =>
        Post.bind (Post.replicateP (parseBoxWith_parsed E hb ht (some ids) (by
          intro s hs; cases hs; exact hids)) _) (fun cs hcs => Post.ofOption (fun t htt => ?_))))))))
  · unfold Input.parse ProverResult.parse
    exact Post.bind (Post.readExact 32) (fun id hid => Post.bind (Q := fun p => GoodProof p.proof ∧ GoodExt E.utf8 bwf p.extension)
      (Post.bind ProofBytes.parsed (fun p hp => Post.bind (Extension.parsed E hb) (fun e he => Post.pure ⟨hp, he⟩)))
      (fun p hp => Post.pure ⟨hid, hp.1, hp.2⟩))
  · unfold parseIds
    refine Post.bind Post.top (fun n _ => Post.ite (fun _ => Post.fail) (fun _ => Post.bind
      (Post.replicateP (Post.readExact 32) _) (fun l hl => Post.pure (fun x hx => hl.2 x ((IdSet.mem_ofList l x).1 hx)))))
  · have e : Tx.newFromVec E is ds cs = .ok t := by
      cases e : Tx.newFromVec E is ds cs with
      | ok x => rw [e] at htt; simp only [Outcome.toOption, Option.some.injEq] at htt; rw [htt]
      | err => rw [e] at htt; cases htt
      | panic => rw [e] at htt; cases htt
    unfold Tx.newFromVec at e
    obtain ⟨i', e1, e'⟩ := Outcome.bind_eq_ok.1 e
    obtain ⟨d', e2, e''⟩ := Outcome.bind_eq_ok.1 e'
    obtain ⟨c', e3, e4⟩ := Outcome.bind_eq_ok.1 e''
    have io : ∀ {α : Type} {l l' : List α}, ofOpt (ioVec l) = .ok l' → l' = l ∧ 1 ≤ l.length ∧ l.length ≤ 65535 := by
      intro α l l' h
      unfold ioVec at h
      split at h
      · rename_i hc
        simp only [ofOpt, Outcome.ok.injEq] at h
        exact ⟨h.symm, hc⟩
      · cases h
    obtain ⟨rfl, bi⟩ := io e1
    obtain ⟨rfl, bc⟩ := io e3
    have gd : GoodData d' := by
      unfold optIoVec at e2
      split at e2
      · simp only [ofOpt, Outcome.ok.injEq] at e2; subst e2; trivial
      · unfold ioVec at e2
        split at e2
        · rename_i hc
          simp only [Option.map_some, ofOpt, Outcome.ok.injEq] at e2
          subst e2
          exact ⟨hc.1, hc.2, hds.2⟩
        · cases e2
    obtain ⟨s1, s2, s3, _⟩ := Tx.new_spec E e4
    refine ⟨?_, by rw [s1, s2, s3]; exact e4⟩
    rw [s1, s2, s3]
    exact ⟨bi, his.2, gd, bc, hcs.2⟩

end
end Verif
