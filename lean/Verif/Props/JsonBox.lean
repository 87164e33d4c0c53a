import Verif.Proofs.JsonTx
import Verif.Props.ErgoTree
import Verif.Proofs.Subst

set_option linter.unusedSimpArgs false
set_option linter.unusedVariables false

/-!
# C74: JSON form of boxes
-/

namespace Verif
open Spec Json

/-! ## Hexadecimal text and amounts -/

/-- The lower case form of a letter `A`..`F`; other characters stay. -/
def lowerHex (c : Char) : Char := if 65 ≤ c.toNat ∧ c.toNat ≤ 70 then Char.ofNat (c.toNat + 32) else c

theorem hexVal_iff (c : Char) (n : Nat) : hexVal c = some n ↔ n < 16 ∧ lowerHex c = hexDigit n := by
  constructor
  · intro h
    refine ⟨hexVal_lt h, ?_⟩
    unfold hexVal at h
    unfold lowerHex hexDigit
    simp only [] at h
    have ho : ∀ k, c.toNat = k → c = Char.ofNat k := fun k hk => by rw [← hk, Char.ofNat_toNat]
    split at h
    · rename_i hc
      cases h
      rw [if_neg (by omega), if_pos (by omega)]
      exact ho _ (by omega)
    · split at h
      · cases h
        rw [if_neg (by omega), if_neg (by omega)]
        exact ho _ (by omega)
      · split at h
        · cases h
          rw [if_pos (by omega), if_neg (by omega)]
          congr 1; omega
        · cases h
  · rintro ⟨h1, h2⟩
    unfold lowerHex at h2
    split at h2
    · rename_i hc
      have : ∀ k : Fin 6, ∀ n : Fin 16, Char.ofNat (65 + k.val + 32) = hexDigit n.val → n.val = 10 + k.val := by decide
      have hn := this ⟨c.toNat - 65, by omega⟩ ⟨n, h1⟩ (by
        rw [← h2]; congr 1; simp only []; omega)
      simp only [] at hn
      unfold hexVal
      simp only []
      rw [if_neg (by omega), if_neg (by omega), if_pos (by omega)]
      congr 1; omega
    · rw [h2]; exact hexVal_hexDigit h1

/-- C74: bytes are read from every spelling of their hexadecimal form, upper or lower case, and from nothing else. -/
theorem C74_hex (s : Text) (b : Bytes) : hexDec s = some b ↔ s.map lowerHex = hexEnc b := by
  induction s using hexDec.induct generalizing b with
  | case1 => cases b <;> simp [hexDec, hexEnc]
  | case2 c => cases b <;> simp [hexDec, hexEnc]
  | case3 x y cs ih =>
    rw [hexDec]
    simp only [Option.bind_eq_bind, Option.bind_eq_some_iff, Option.pure_def, Option.some.injEq]
    constructor
    · rintro ⟨m, h1, n, h2, r, h3, rfl⟩
      obtain ⟨a1, a2⟩ := (hexVal_iff x m).1 h1
      obtain ⟨b1, b2⟩ := (hexVal_iff y n).1 h2
      have e : (BitVec.ofNat 8 (16 * m + n)).toNat = 16 * m + n := by rw [BitVec.toNat_ofNat]; omega
      simp only [List.map_cons, hexEnc, e]
      rw [a2, b2, (ih r).1 h3, show (16 * m + n) / 16 = m by omega, show (16 * m + n) % 16 = n by omega]
    · intro h
      cases b with
      | nil => simp [hexEnc] at h
      | cons z b =>
        simp only [List.map_cons, hexEnc, List.cons.injEq] at h
        obtain ⟨h1, h2, h3⟩ := h
        have hz := z.isLt
        refine ⟨z.toNat / 16, (hexVal_iff x _).2 ⟨by omega, h1⟩, z.toNat % 16, (hexVal_iff y _).2 ⟨by omega, h2⟩, b,
          (ih b).2 h3, ?_⟩
        rw [Nat.div_add_mod, BitVec.ofNat_toNat, BitVec.setWidth_eq]

example : hexDec ['0', 'F', 'a', 'B'] = some [15, 171] ∧ hexDec ['0', 'F', 'a'] = none := by decide

/-- C74: a value or an amount is a `u64`, given as a number or as the decimal text of one. -/
theorem C74_amounts (j : Json) (n : Nat) :
    readAmount j = .ok n ↔ n < 2 ^ 64 ∧ (j = .num (.nat n) ∨ j = .str (decimal n)) := by
  constructor
  · intro h
    refine ⟨readAmount_lt h, ?_⟩
    unfold readAmount at h
    split at h
    · split at h
      · cases h; exact Or.inl rfl
      · cases h
    · split at h
      · split at h
        · rename_i hd
          cases h
          exact Or.inr (by rw [hd])
        · cases h
      · cases h
    · cases h
  · rintro ⟨h, rfl | rfl⟩
    · exact readAmount_nat h
    · exact readAmount_str h

example : readAmount (.str ['4', '2']) = .ok 42 ∧ readAmount (.str ['0', '4', '2']) = .err ∧ readAmount (.num (.nat 0)) = .ok 0 := by
  decide +kernel

section
variable {G B T : Type} [DecidableEq G]

/-! ## Round trips -/

/-- C74: a box candidate is read back from its JSON form, in whatever order the registers were written. -/
theorem C74_candidate_roundtrip (E : Sers G B T) (tp : Bytes → Option T) {bwf : B → Prop} {twf twf' : T → Prop}
    (h : GoodSers E bwf twf') (ht : TreeText E tp twf) (ord : List (Text × Json) → List (Text × Json)) (ho : IsOrder ord)
    (c : BoxCand G B T) (hc : JsonCand E bwf twf c) : ∃ j, writeCand E ord c = .ok j ∧ readCand E tp j = .ok c :=
  writeCand_rt E tp h ht ho c hc

/-- C74: a box is read back from its JSON form. -/
theorem C74_box_roundtrip (E : Sers G B T) (tp : Bytes → Option T) {bwf : B → Prop} {twf twf' : T → Prop}
    (h : GoodSers E bwf twf') (ht : TreeText E tp twf) (ord : List (Text × Json) → List (Text × Json)) (ho : IsOrder ord)
    (b : EBox G B T) (hb : JsonBox E bwf twf b) : ∃ j, writeBox E ord b = .ok j ∧ readBox E tp j = .ok b :=
  writeBox_rt E tp h ht ho b hb

/-- A box within the bounds of the binary codec is within those of JSON. -/
theorem C74_good_box (E : Sers G B T) {bwf : B → Prop} {twf : T → Prop} (b : EBox G B T) (hb : GoodBox E bwf twf b) :
    JsonBox E bwf twf b := by
  obtain ⟨⟨h1, h2, h3, h4⟩, h5, h6⟩ := hb
  refine ⟨⟨by omega, h2, ?_, h4.1, fun v hv => ?_⟩, h5, h6⟩
  · have : ∀ tk : Option (List Token), GoodTokens tk → JsonTokens tk := by
      intro tk hk
      cases tk with
      | none => trivial
      | some l => exact ⟨hk.1, hk.2.1, fun t ht => ⟨(hk.2.2 t ht).1, by have := (hk.2.2 t ht).2.2; omega⟩⟩
    exact this _ h3
  · have := h4.2 v hv
    cases v with
    | parsed c => exact this
    | tupleExpr l => exact this
    | invalid x => exact this.elim

/-- C74: both, with ErgoTrees: a good box is written, and read back the same. -/
theorem C74_tree_box_roundtrip (E : Sers G B T) {bwf : B → Prop} (hbox : BoxRoundTrips E.bc bwf) (hb : NonExp E.bc.parse)
    (M : Byte → Byte → Option FuncSig) (ord : List (Text × Json) → List (Text × Json)) (ho : IsOrder ord)
    (E' : Sers G B (ETree G B)) (hE : E' = { utf8 := E.utf8, pc := E.pc, bc := E.bc, tc := ETree.codec E M, H := E.H })
    (b : EBox G B (ETree G B)) (hgb : GoodBox E' bwf (fun t => GoodTree E bwf M t ∧ FitsSize E t) b) :
    ∃ j, writeBox E' ord b = .ok j ∧ readBox E' (ETree.parseBytes E M) j = .ok b := by
  have hs := C43_tree_codec E hbox hb M
  rw [← hE] at hs
  refine writeBox_rt E' (ETree.parseBytes E M) hs (twf := fun t => GoodTree E bwf M t ∧ FitsSize E t) ?_ ho b (C74_good_box E' b hgb)
  intro t ht
  obtain ⟨bs, e⟩ := (ETree.rt E hbox hb M t ht.1).1 ht.2
  exact ⟨bs, by rw [hE]; exact e, C43_bytes_roundtrip E hbox hb M t ht.1 bs e⟩

/-! ## What a reader guarantees -/

/-- C74: a box that was read has the id of its contents, and it is the declared one if one was declared. -/
theorem C74_id (E : Sers G B T) (tp : Bytes → Option T) (o : List (Text × Json)) (b : EBox G B T)
    (h : readBox E tp (.obj o) = .ok b) :
    b.calcId E = .ok b.boxId ∧ ∀ k d, (k, Json.str d) ∈ o → k = kBoxId ∨ k = kId → hexDec d = some b.boxId := by
  obtain ⟨h1, _, _, _, h5⟩ := (readBox_iff E tp).1 h
  refine ⟨h5, fun k d hm hk => ?_⟩
  have hn : Json.str d ∈ named [kBoxId, kId] o := by
    unfold named
    refine List.mem_map.2 ⟨(k, .str d), List.mem_filter.2 ⟨hm, by simpa using hk⟩, rfl⟩
  unfold opt at h1
  rcases h2 : named [kBoxId, kId] o with _ | ⟨a, _ | ⟨a', l⟩⟩
  · rw [h2] at hn; simp at hn
  · rw [h2] at hn h1
    simp only [List.mem_singleton] at hn
    subst hn
    rcases h1 with h1 | ⟨j, h1, hj⟩
    · cases h1
    · cases h1
      unfold readDigest readHex readStr at hj
      simp only [Outcome.bind_ok] at hj
      obtain ⟨x, g1, g2⟩ := json_bind_ok.1 hj
      split at g2
      · cases g2; exact json_ofOpt.1 g1
      · cases g2
  · rw [h2] at h1
    rcases h1 with h1 | ⟨j, h1, hj⟩ <;> simp at h1

/-- C74: the id need not be declared; if it is, exactly the right one is accepted. -/
theorem C74_declared_id (E : Sers G B T) (tp : Bytes → Option T) (o : List (Text × Json)) (b : EBox G B T)
    (h : readBox E tp (.obj o) = .ok b) (hn : kBoxId ∉ o.map Prod.fst ∧ kId ∉ o.map Prod.fst)
    (d : Bytes) : readBox E tp (.obj ((kBoxId, .str (hexEnc d)) :: o)) = .ok b ↔ d = b.boxId := by
  obtain ⟨_, h2, h3, h4, h5⟩ := (readBox_iff E tp).1 h
  have hnil : named [kBoxId, kId] o = [] := by
    unfold named
    rw [List.map_eq_nil_iff, List.filter_eq_nil_iff]
    intro p hp
    simp only [List.mem_cons, List.not_mem_nil, or_false, decide_eq_true_eq, not_or]
    exact ⟨fun e => hn.1 (e ▸ List.mem_map_of_mem hp), fun e => hn.2 (e ▸ List.mem_map_of_mem hp)⟩
  have hone : opt [kBoxId, kId] ((kBoxId, Json.str (hexEnc d)) :: o) = .ok (some (.str (hexEnc d))) := by
    unfold opt
    have : named [kBoxId, kId] ((kBoxId, Json.str (hexEnc d)) :: o) = .str (hexEnc d) :: named [kBoxId, kId] o := by
      unfold named
      rw [List.filter_cons_of_pos (by simp)]
      rfl
    rw [this, hnil]
  have hrest : readCandFields E tp ((kBoxId, Json.str (hexEnc d)) :: o) = readCandFields E tp o := by
    apply readCandFields_congr
    intro k hk
    refine req_extra ?_
    simp only [List.mem_cons, List.not_mem_nil, or_false] at hk
    rcases hk with rfl | rfl | rfl | rfl | rfl <;> decide
  rw [readBox_iff, hone, hrest, req_extra (by decide), req_extra (by decide)]
  constructor
  · rintro ⟨h1, _⟩
    rcases h1 with h1 | ⟨j, h1, hj⟩
    · cases h1
    · cases h1
      unfold readDigest at hj
      rw [readHex_hex, Outcome.bind_ok] at hj
      split at hj
      · cases hj; rfl
      · cases hj
  · rintro rfl
    exact ⟨Or.inr ⟨_, rfl, readDigest_hex (calcId_len E h5)⟩, h2, h3, h4, h5⟩

/-- The names the reader of boxes looks for. -/
def boxFields : List Text := [kBoxId, kId, kValue, kErgoTree, kAssets, kRegisters, kHeight, kTransactionId, kTxId, kIndex]

/-- C74: the order of the fields does not matter. -/
theorem C74_field_order (E : Sers G B T) (tp : Bytes → Option T) (o o' : List (Text × Json)) (h : o.Perm o') :
    readBox E tp (.obj o) = readBox E tp (.obj o') := by
  unfold readBox
  simp only []
  rw [opt_perm h, readCandFields_congr E tp (fun k _ => req_perm h), req_perm h (names := [kTransactionId, kTxId]),
    req_perm h (names := [kIndex])]

/-- C74: fields with other names are ignored. -/
theorem C74_other_fields (E : Sers G B T) (tp : Bytes → Option T) (o : List (Text × Json)) (k : Text) (j : Json)
    (h : k ∉ boxFields) : readBox E tp (.obj ((k, j) :: o)) = readBox E tp (.obj o) := by
  unfold boxFields at h
  simp only [List.mem_cons, List.not_mem_nil, or_false, not_or] at h
  unfold readBox
  simp only []
  rw [opt_extra (by simp [h]), req_extra (names := [kTransactionId, kTxId]) (by simp [h]),
    req_extra (names := [kIndex]) (by simp [h]),
    readCandFields_congr E tp (o := (k, j) :: o) (o' := o) (fun k' hk => req_extra (by
      simp only [List.mem_cons, List.not_mem_nil, or_false] at hk ⊢
      rcases hk with rfl | rfl | rfl | rfl | rfl <;> simp [h]))]

/-- C74: an id given as `null`, under either of its names, is as good as none. -/
theorem C74_null_id (E : Sers G B T) (tp : Bytes → Option T) (o : List (Text × Json))
    (hn : kBoxId ∉ o.map Prod.fst ∧ kId ∉ o.map Prod.fst) (k : Text) (hk : k = kBoxId ∨ k = kId) :
    readBox E tp (.obj ((k, .null) :: o)) = readBox E tp (.obj o) := by
  have hnil : named [kBoxId, kId] o = [] := by
    unfold named
    rw [List.map_eq_nil_iff, List.filter_eq_nil_iff]
    intro p hp
    simp only [List.mem_cons, List.not_mem_nil, or_false, decide_eq_true_eq, not_or]
    exact ⟨fun e => hn.1 (e ▸ List.mem_map_of_mem hp), fun e => hn.2 (e ▸ List.mem_map_of_mem hp)⟩
  have hone : opt [kBoxId, kId] ((k, Json.null) :: o) = opt [kBoxId, kId] o := by
    unfold opt
    have : named [kBoxId, kId] ((k, Json.null) :: o) = .null :: named [kBoxId, kId] o := by
      unfold named
      rw [List.filter_cons_of_pos (by simpa using hk)]
      rfl
    rw [this, hnil]
  have hrest : readCandFields E tp ((k, Json.null) :: o) = readCandFields E tp o := by
    apply readCandFields_congr
    intro k' hk'
    refine req_extra ?_
    simp only [List.mem_cons, List.not_mem_nil, or_false] at hk'
    rcases hk with rfl | rfl <;> rcases hk' with rfl | rfl | rfl | rfl | rfl <;> decide
  unfold readBox
  simp only []
  rw [hone, hrest, req_extra (names := [kTransactionId, kTxId]) (by rcases hk with rfl | rfl <;> decide),
    req_extra (names := [kIndex]) (by rcases hk with rfl | rfl <;> decide)]

/-- C74: a required field that is missing or given twice is refused. -/
theorem C74_repeated_field (E : Sers G B T) (tp : Bytes → Option T) (o : List (Text × Json)) (b : EBox G B T)
    (h : readBox E tp (.obj o) = .ok b) (k : Text) (hk : k ∈ [kValue, kErgoTree, kAssets, kRegisters, kHeight, kIndex]) :
    (o.map Prod.fst).count k = 1 := by
  have key : ∀ j, req [k] o = .ok j → (o.map Prod.fst).count k = 1 := by
    intro j hj
    unfold req at hj
    split at hj
    · rename_i hx
      have := congrArg List.length hx
      unfold named at this
      rw [List.length_map, List.length_singleton] at this
      rw [List.count, List.countP_map, List.countP_eq_length_filter, ← this]
      congr 2
      funext p
      exact Bool.eq_iff_iff.2 (by simp)
    · cases hj
  obtain ⟨_, h2, _, h4, _⟩ := (readBox_iff E tp).1 h
  obtain ⟨g1, g2, g3, g4, g5⟩ := readCandFields_inv E tp h2
  obtain ⟨j1, g1, _⟩ := json_bind_ok.1 g1
  obtain ⟨j2, g2, _⟩ := json_bind_ok.1 g2
  obtain ⟨j3, g3, _⟩ := json_bind_ok.1 g3
  obtain ⟨j4, g4, _⟩ := json_bind_ok.1 g4
  obtain ⟨j5, g5, _⟩ := json_bind_ok.1 g5
  obtain ⟨j6, g6, _⟩ := json_bind_ok.1 h4
  simp only [List.mem_cons, List.not_mem_nil, or_false] at hk
  rcases hk with rfl | rfl | rfl | rfl | rfl | rfl
  · exact key _ g1
  · exact key _ g2
  · exact key _ g3
  · exact key _ g4
  · exact key _ g5
  · exact key _ g6

omit [DecidableEq G] in
/-- C74: registers with distinct names are read alike in every order. -/
theorem C74_register_order (E : Sers G B T) (o o' : List (Text × Json)) (hp : o.Perm o') (hk : (o.map Prod.fst).Nodup)
    (rs : Regs G B) : readRegs E (.obj o) = .ok rs ↔ readRegs E (.obj o') = .ok rs :=
  ⟨readRegs_perm E hp hk, readRegs_perm E hp.symm ((hp.map _).nodup_iff.1 hk)⟩

/-- C74, partial: what a box that was read satisfies: ids of 32 bytes, at most 122 tokens, at most six registers without gaps, every
register a serializable value, value and amounts within `u64`.  What is missing: value and amounts need not be within the bounds of
`BoxValue` and `TokenAmount`, the tree need not be one (see the violations). -/
theorem C74_reads_partial (E : Sers G B T) (tp : Bytes → Option T) {bwf : B → Prop} (hp : BoxParsed E.bc bwf) (j : Json)
    (b : EBox G B T) (h : readBox E tp j = .ok b) :
    JsonBox E bwf (fun t => ∃ x, tp x = some t) b ∧ ∀ v ∈ b.regs, GoodReg E.utf8 bwf v := by
  have hb := readBox_spec E tp hp h
  refine ⟨hb, fun v hv => ?_⟩
  have h1 := hb.cand.regs.2 v hv
  cases v with
  | parsed c => exact h1
  | tupleExpr l => exact h1
  | invalid x =>
    exfalso
    have hid := hb.id
    unfold EBox.calcId EBox.ser at hid
    obtain ⟨bytes, g1, _⟩ := Outcome.bind_eq_ok.1 hid
    obtain ⟨tb, _, g2⟩ := Outcome.bind_eq_ok.1 g1
    obtain ⟨body, g3, _⟩ := Outcome.bind_eq_ok.1 g2
    unfold serBoxWith at g3
    obtain ⟨_, _, g4⟩ := Outcome.bind_eq_ok.1 g3
    obtain ⟨_, _, g5⟩ := Outcome.bind_eq_ok.1 g4
    obtain ⟨rs, g6, _⟩ := Outcome.bind_eq_ok.1 g5
    unfold Regs.ser at g6
    obtain ⟨y, g7, _⟩ := Outcome.bind_eq_ok.1 g6
    have : ∀ (l : List (RegVal G B)) y, RegVal.invalid x ∈ l → serMany (RegVal.ser E) l ≠ .ok y := by
      intro l
      induction l with
      | nil => intro y hm; simp at hm
      | cons a l ih =>
        intro y hm he
        rw [serMany] at he
        obtain ⟨z, k1, k2⟩ := Outcome.bind_eq_ok.1 he
        obtain ⟨w, k3, _⟩ := Outcome.bind_eq_ok.1 k2
        rcases List.mem_cons.1 hm with rfl | hm
        · cases k1
        · exact ih w hm k3
    exact this _ _ hv g7

/-- C74: what was read can be written and is then read as the same box (`tp` reads what it once read). -/
theorem C74_stable (E : Sers G B T) (tp : Bytes → Option T) {bwf : B → Prop} {twf : T → Prop} (h : GoodSers E bwf twf)
    (hp : BoxParsed E.bc bwf) (htp : ∀ x t y, tp x = some t → E.tc.ser t = .ok y → tp y = some t)
    (ord : List (Text × Json) → List (Text × Json)) (ho : IsOrder ord) (j : Json) (b : EBox G B T)
    (hr : readBox E tp j = .ok b) : ∃ j', writeBox E ord b = .ok j' ∧ readBox E tp j' = .ok b := by
  have hb := readBox_spec E tp hp hr
  have hid := hb.id
  unfold EBox.calcId EBox.ser at hid
  obtain ⟨bytes, g1, _⟩ := Outcome.bind_eq_ok.1 hid
  obtain ⟨tb, g2, _⟩ := Outcome.bind_eq_ok.1 g1
  refine writeBox_rt E tp h (twf := fun t => ∃ y, E.tc.ser t = .ok y ∧ tp y = some t) (fun t ht => ht) ho b
    ⟨⟨hb.cand.value, ?_, hb.cand.tokens, hb.cand.regs⟩, hb.txId, hb.id⟩
  obtain ⟨x, hx⟩ := hb.cand.tree
  exact ⟨tb, g2, htp x _ tb hx g2⟩

/-- C74: `ErgoTree::sigma_parse_bytes` is such a reader. -/
theorem C74_tree_reread (E : Sers G B T) {bwf : B → Prop} (hbox : BoxRoundTrips E.bc bwf) (hp : BoxParsed E.bc bwf)
    (hb : NonExp E.bc.parse) (M : Byte → Byte → Option FuncSig) (x : Bytes) (t : ETree G B) (y : Bytes)
    (h : ETree.parseBytes E M x = some t) (hs : ETree.ser E t = .ok y) : ETree.parseBytes E M y = some t := by
  cases t with
  | unparsed b =>
    obtain ⟨h1, h2⟩ := C43_unparsed_bytes E M x b h
    rw [h2] at hs
    cases hs
    exact h
  | parsed hd C root =>
    exact C43_bytes_roundtrip E hbox hb M _ (parseBytes_good E hp M x hd C root h) y hs

/-! ## Panics -/

omit [DecidableEq G] in
theorem bind_panic_inv {α β : Type} {x : Outcome α} {f : α → Outcome β} (h : (x >>= f) = .panic) :
    x = .panic ∨ ∃ a, x = .ok a ∧ f a = .panic := by
  cases x with
  | ok a => exact Or.inr ⟨a, rfl, h⟩
  | err => cases h
  | panic => exact Or.inl rfl

theorem req_np (n : List Text) (o : List (Text × Json)) : req n o ≠ .panic := by
  unfold req; split <;> simp

theorem opt_np (n : List Text) (o : List (Text × Json)) : opt n o ≠ .panic := by
  unfold opt; split <;> simp

theorem json_ofOpt_np {α : Type} (o : Option α) : ofOpt o ≠ .panic := by cases o <;> simp [ofOpt]

theorem readHex_np (j : Json) : readHex j ≠ .panic := by
  unfold readHex
  intro h
  rcases bind_panic_inv h with h | ⟨a, _, h⟩
  · unfold readStr at h; split at h <;> cases h
  · exact json_ofOpt_np _ h

theorem readDigest_np (j : Json) : readDigest j ≠ .panic := by
  unfold readDigest
  intro h
  rcases bind_panic_inv h with h | ⟨a, _, h⟩
  · exact readHex_np _ h
  · split at h <;> cases h

theorem readUint_np (n : Nat) (j : Json) : readUint n j ≠ .panic := by
  unfold readUint; split <;> (try split) <;> simp

theorem readAmount_np (j : Json) : readAmount j ≠ .panic := by
  unfold readAmount
  split
  · split <;> simp
  · split
    · split <;> simp
    · simp
  · simp

theorem readArr_np {α : Type} {f : Json → Outcome α} (hf : ∀ j, f j ≠ .panic) (j : Json) : readArr f j ≠ .panic := by
  have : ∀ l, readArr.go f l ≠ .panic := by
    intro l
    induction l with
    | nil => simp [readArr.go]
    | cons a l ih =>
      rw [readArr.go]
      intro h
      rcases bind_panic_inv h with h | ⟨x, _, h⟩
      · exact hf a h
      · rcases bind_panic_inv h with h | ⟨y, _, h⟩
        · exact ih h
        · cases h
  unfold readArr
  split
  · exact this _
  · simp

theorem readTokens_np (j : Json) : readTokens j ≠ .panic := by
  unfold readTokens
  intro h
  rcases bind_panic_inv h with h | ⟨x, _, h⟩
  · refine readArr_np (fun j h => ?_) j h
    unfold readToken at h
    split at h
    · rcases bind_panic_inv h with h | ⟨x, _, h⟩
      · rcases bind_panic_inv h with h | ⟨x, _, h⟩
        · exact req_np _ _ h
        · exact readDigest_np _ h
      · rcases bind_panic_inv h with h | ⟨x, _, h⟩
        · rcases bind_panic_inv h with h | ⟨x, _, h⟩
          · exact req_np _ _ h
          · exact readAmount_np _ h
        · cases h
    · cases h
  · exact json_ofOpt_np _ h

omit [DecidableEq G] in
theorem readRegister_np (E : Sers G B T) (j : Json) : readRegister E j ≠ .panic := by
  unfold readRegister
  split
  · intro h
    rcases bind_panic_inv h with h | ⟨x, _, h⟩
    · exact json_ofOpt_np _ h
    · cases h
  · intro h
    rcases bind_panic_inv h with h | ⟨x, _, h⟩
    · rcases bind_panic_inv h with h | ⟨x, _, h⟩
      · exact req_np _ _ h
      · exact readHex_np _ h
    · cases h
  · simp

theorem ofStr_panic_iff (s : List Char) : NmId.ofStr s = .panic ↔ ∃ c : Char, s = [c] ∧ 0x80 ≤ c.toNat ∧ c.toNat ≤ 0x7FF :=
  C12_names_panic s

omit [DecidableEq G] in
theorem readRegs_panic (E : Sers G B T) {j : Json} (h : readRegs E j = .panic) :
    ∃ o, j = .obj o ∧ ∃ p ∈ o, ∃ c : Char, p.1 = [c] ∧ 0x80 ≤ c.toNat ∧ c.toNat ≤ 0x7FF := by
  unfold readRegs at h
  split at h
  · rename_i o
    refine ⟨o, rfl, ?_⟩
    rcases bind_panic_inv h with h | ⟨x, _, h⟩
    · have : ∀ (l : List (Text × Json)) m, readRegEntries E l m = .panic → ∃ p ∈ l, NmId.ofStr p.1 = .panic := by
        intro l
        induction l with
        | nil => intro m h; cases h
        | cons p l ih =>
          intro m h
          rw [readRegEntries] at h
          rcases bind_panic_inv h with h | ⟨x, _, h⟩
          · exact ⟨p, by simp, h⟩
          · rcases bind_panic_inv h with h | ⟨y, _, h⟩
            · exact absurd h (readRegister_np E _)
            · obtain ⟨q, hq, e⟩ := ih _ h
              exact ⟨q, by simp [hq], e⟩
      obtain ⟨p, hp, e⟩ := this _ _ h
      exact ⟨p, hp, (ofStr_panic_iff _).1 e⟩
    · exact absurd h (json_ofOpt_np _)
  · cases h

/-- C74: reading a box panics only on a register name that is one character of two bytes in UTF-8 (provided writing trees does not
panic). -/
theorem C74_panics (E : Sers G B T) (tp : Bytes → Option T) {bwf : B → Prop} {twf : T → Prop} (h : GoodSers E bwf twf)
    (hp : BoxParsed E.bc bwf) (hs : ∀ t, E.tc.ser t ≠ .panic) (j : Json) (hj : readBox E tp j = .panic) :
    ∃ o regs, j = .obj o ∧ (kRegisters, Json.obj regs) ∈ o ∧
      ∃ p ∈ regs, ∃ c : Char, p.1 = [c] ∧ 0x80 ≤ c.toNat ∧ c.toNat ≤ 0x7FF := by
  unfold readBox at hj
  split at hj
  · rename_i o
    refine ⟨o, ?_⟩
    suffices hk : (req [kRegisters] o >>= readRegs E) = .panic by
      rcases bind_panic_inv hk with hk | ⟨x, hx, hk⟩
      · exact absurd hk (req_np _ _)
      · obtain ⟨regs, rfl, hpan⟩ := readRegs_panic E hk
        refine ⟨regs, rfl, ?_, hpan⟩
        unfold req at hx
        split at hx
        · rename_i hy
          cases hx
          have : Json.obj regs ∈ named [kRegisters] o := by rw [hy]; simp
          unfold named at this
          obtain ⟨p, hp', e⟩ := List.mem_map.1 this
          obtain ⟨hp1, hp2⟩ := List.mem_filter.1 hp'
          obtain ⟨k, v⟩ := p
          simp only [List.mem_singleton, decide_eq_true_eq] at e hp2
          subst e; subst hp2
          exact hp1
        · cases hx
    rcases bind_panic_inv hj with hj | ⟨d, _, hj⟩
    · exact absurd hj (opt_np _ _)
    rcases bind_panic_inv hj with hj | ⟨did, _, hj⟩
    · exfalso
      unfold readDeclaredId at hj
      split at hj
      · cases hj
      · rcases bind_panic_inv hj with hj | ⟨x, _, hj⟩
        · exact readDigest_np _ hj
        · cases hj
    rcases bind_panic_inv hj with hj | ⟨c, hc, hj⟩
    · unfold readCandFields at hj
      rcases bind_panic_inv hj with hj | ⟨_, _, hj⟩
      · rcases bind_panic_inv hj with hj | ⟨_, _, hj⟩
        · exact absurd hj (req_np _ _)
        · exact absurd hj (readAmount_np _)
      rcases bind_panic_inv hj with hj | ⟨_, _, hj⟩
      · rcases bind_panic_inv hj with hj | ⟨_, _, hj⟩
        · exact absurd hj (req_np _ _)
        · unfold readTree at hj
          rcases bind_panic_inv hj with hj | ⟨_, _, hj⟩
          · exact absurd hj (readHex_np _)
          · exact absurd hj (json_ofOpt_np _)
      rcases bind_panic_inv hj with hj | ⟨_, _, hj⟩
      · rcases bind_panic_inv hj with hj | ⟨_, _, hj⟩
        · exact absurd hj (req_np _ _)
        · exact absurd hj (readTokens_np _)
      rcases bind_panic_inv hj with hj | ⟨_, _, hj⟩
      · exact hj
      rcases bind_panic_inv hj with hj | ⟨_, _, hj⟩
      · rcases bind_panic_inv hj with hj | ⟨_, _, hj⟩
        · exact absurd hj (req_np _ _)
        · exact absurd hj (readUint_np _ _)
      cases hj
    exfalso
    have hcand := readCandFields_spec E tp hp hc
    rcases bind_panic_inv hj with hj | ⟨txId, _, hj⟩
    · rcases bind_panic_inv hj with hj | ⟨_, _, hj⟩
      · exact req_np _ _ hj
      · exact readDigest_np _ hj
    rcases bind_panic_inv hj with hj | ⟨index, _, hj⟩
    · rcases bind_panic_inv hj with hj | ⟨_, _, hj⟩
      · exact req_np _ _ hj
      · exact readUint_np _ _ hj
    rcases bind_panic_inv hj with hj | ⟨b, _, hj⟩
    · unfold EBox.ofCand EBox.calcId EBox.ser at hj
      rcases bind_panic_inv hj with hj | ⟨_, _, hj⟩
      · rcases bind_panic_inv hj with hj | ⟨_, _, hj⟩
        · rcases bind_panic_inv hj with hj | ⟨_, _, hj⟩
          · exact hs _ hj
          rcases bind_panic_inv hj with hj | ⟨_, _, hj⟩
          · unfold serBoxWith at hj
            simp only [] at hj
            have hlen : (c.tokens.getD []).length ≤ 122 := by
              have := hcand.tokens
              cases e : c.tokens with
              | none => simp
              | some l => rw [e] at this; exact this.2.1
            rcases bind_panic_inv hj with hj | ⟨_, _, hj⟩
            · rw [putCount8_ok (by omega)] at hj; cases hj
            rcases bind_panic_inv hj with hj | ⟨_, _, hj⟩
            · have : ∀ l : List Token, serMany (serToken none) l ≠ .panic := by
                intro l
                induction l with
                | nil => simp [serMany]
                | cons a l ih =>
                  rw [serMany]
                  intro h
                  rcases bind_panic_inv h with h | ⟨_, _, h⟩
                  · cases h
                  rcases bind_panic_inv h with h | ⟨_, _, h⟩
                  · exact ih h
                  · cases h
              exact this _ hj
            rcases bind_panic_inv hj with hj | ⟨_, _, hj⟩
            · unfold Regs.ser at hj
              have : ∀ l : List (RegVal G B), (∀ v ∈ l, JsonReg E bwf v) → serMany (RegVal.ser E) l ≠ .panic := by
                intro l
                induction l with
                | nil => intro _; simp [serMany]
                | cons a l ih =>
                  intro hl
                  rw [serMany]
                  intro h'
                  rcases bind_panic_inv h' with h' | ⟨_, _, h'⟩
                  · have ha := hl a (by simp)
                    cases a with
                    | parsed x =>
                      obtain ⟨_, _, _, e, _⟩ := Regs.regVal_rt E h (.parsed x) ha
                      rw [e] at h'; cases h'
                    | tupleExpr x =>
                      obtain ⟨_, _, _, e, _⟩ := Regs.regVal_rt E h (.tupleExpr x) ha
                      rw [e] at h'; cases h'
                    | invalid x => cases h'
                  rcases bind_panic_inv h' with h' | ⟨_, _, h'⟩
                  · exact ih (fun v hv => hl v (by simp [hv])) h'
                  · cases h'
              rcases bind_panic_inv hj with hj | ⟨_, _, hj⟩
              · exact this _ hcand.regs.2 hj
              · cases hj
            cases hj
          cases hj
        cases hj
      cases hj
    split at hj
    · split at hj <;> cases hj
    · cases hj
  · cases hj

end

/-! ## Violations -/

/-- A reader of toy trees. -/
def toyTp : Bytes → Option Byte
  | [b] => some b
  | _ => none

theorem toyTp_text : TreeText toySers toyTp (fun _ => True) := fun t _ => ⟨[t], rfl, rfl⟩

theorem toySers_parsed : BoxParsed toySers.bc (fun _ => True) := fun _ b => b.elim

/-- 32 zero bytes. -/
def zeros32 : Bytes := List.replicate 32 0

/-- C74, violation: neither `BoxValue` nor `TokenAmount` are checked.  JSON gives boxes with the value 0 and with a token amount 0,
whose bytes cannot be read. -/
theorem C74_bounds_violates :
    (∃ j b bs, readBox toySers toyTp j = .ok b ∧ b.value = 0 ∧ b.ser toySers = .ok bs ∧ EBox.parse toySers bs = none) ∧
    (∃ j b bs, readBox toySers toyTp j = .ok b ∧ b.tokens = some [(zeros32, 0)] ∧ b.ser toySers = .ok bs ∧
      EBox.parse toySers bs = none) := by
  constructor
  · obtain ⟨j, _, h⟩ := writeBox_rt (ord := id) toySers toyTp toySers_good toyTp_text (fun l => List.Perm.refl _)
      { value := 0, tree := 7, height := 0, tokens := none, regs := [], txId := zeros32, index := 0,
        boxId := sumHash ([0, 7, 0, 0, 0] ++ zeros32 ++ [0]) }
      ⟨⟨by decide, trivial, trivial, by decide, by intro v hv; cases hv⟩, rfl, by decide +kernel⟩
    exact ⟨j, _, [0, 7, 0, 0, 0] ++ zeros32 ++ [0], h, rfl, by decide +kernel, by decide +kernel⟩
  · obtain ⟨j, _, h⟩ := writeBox_rt (ord := id) toySers toyTp toySers_good toyTp_text (fun l => List.Perm.refl _)
      { value := 1000, tree := 7, height := 0, tokens := some [(zeros32, 0)], regs := [], txId := zeros32, index := 0,
        boxId := sumHash ([232, 7, 7, 0, 1] ++ zeros32 ++ [0] ++ [0] ++ zeros32 ++ [0]) }
      ⟨⟨by decide, trivial, ⟨by decide, by decide, by decide⟩, by decide, by intro v hv; cases hv⟩, rfl, by decide +kernel⟩
    exact ⟨j, _, [232, 7, 7, 0, 1] ++ zeros32 ++ [0] ++ [0] ++ zeros32 ++ [0], h, rfl, by decide +kernel, by decide +kernel⟩

/-- Toy serializers with ErgoTrees. -/
def toyTreeSers (H : HashFn) : Sers (Fin 3) Empty (ETree (Fin 3) Empty) :=
  { utf8 := toySers.utf8, pc := toySers.pc, bc := toySers.bc, tc := ETree.codec toySers noMethods, H := H }

/-- A box with a register. -/
def twinA (id : Bytes) : EBox (Fin 3) Empty (ETree (Fin 3) Empty) :=
  { boxId := id, value := 1000, tree := .parsed ⟨0, false, false⟩ [] (.const (intConst 3)), height := 5, tokens := none,
    regs := [.parsed ⟨.coll .byte, .collByte [7, 0, 0]⟩], txId := zeros32, index := 0 }

/-- A box without registers and with another script and creation height. -/
def twinB (id : Bytes) : EBox (Fin 3) Empty (ETree (Fin 3) Empty) :=
  { boxId := id, value := 1000, tree := .unparsed [0, 4, 6, 5, 0, 1, 14, 3], height := 7, tokens := none, regs := [],
    txId := zeros32, index := 0 }

/-- The bytes of both. -/
def twinBytes : Bytes := [232, 7, 0, 4, 6, 5, 0, 1, 14, 3, 7, 0, 0] ++ zeros32 ++ [0]

/-- C74, violation: the id does not determine what is read from JSON.  A tree may be given with bytes behind it, and these pass for
the fields after the tree: the two boxes have the same bytes and so the same id, whatever the hash function is. -/
theorem C74_twins_violate (H : HashFn) :
    ∃ j j' b b', readBox (toyTreeSers H) (ETree.parseBytes toySers noMethods) j = .ok b ∧
      readBox (toyTreeSers H) (ETree.parseBytes toySers noMethods) j' = .ok b' ∧
      b.ser (toyTreeSers H) = .ok twinBytes ∧ b'.ser (toyTreeSers H) = .ok twinBytes ∧ b.boxId = b'.boxId ∧
      b.height = 5 ∧ b'.height = 7 ∧ b.regs.length = 1 ∧ b'.regs.length = 0 ∧
      b.tree.proposition toySers noMethods = .ok (.const (intConst 3)) ∧ b'.tree.proposition toySers noMethods = .err := by
  have hg : GoodSers (toyTreeSers H) (fun _ => True) (fun t => GoodTree toySers (fun _ => True) noMethods t ∧ FitsSize toySers t) := by
    have := C43_tree_codec toySers (bwf := fun _ => True) (fun b => b.elim) NonExp.fail noMethods
    exact ⟨this.box, this.boxNE, this.tree, this.treeNE⟩
  have ht : TreeText (toyTreeSers H) (ETree.parseBytes toySers noMethods)
      (fun t => t = (twinA []).tree ∨ t = (twinB []).tree) := by
    rintro t (rfl | rfl)
    · exact ⟨[0, 4, 6], by with_unfolding_all rfl, by with_unfolding_all rfl⟩
    · exact ⟨[0, 4, 6, 5, 0, 1, 14, 3], by with_unfolding_all rfl, by with_unfolding_all rfl⟩
  have e1 : ∀ id, (twinA id).ser (toyTreeSers H) = .ok twinBytes := fun id =>
    Eq.trans (show _ = (twinA []).ser (toyTreeSers sumHash) from rfl) (by decide +kernel)
  have e2 : ∀ id, (twinB id).ser (toyTreeSers H) = .ok twinBytes := fun id =>
    Eq.trans (show _ = (twinB []).ser (toyTreeSers sumHash) from rfl) (by decide +kernel)
  obtain ⟨j, _, h1⟩ := writeBox_rt (ord := id) (toyTreeSers H) _ hg ht (fun l => List.Perm.refl _) (twinA (H twinBytes))
    ⟨⟨by show 1000 < 2 ^ 64; omega, Or.inl rfl, trivial, by show 1 ≤ 6; omega, by
      intro v hv
      simp only [twinA, EBox.toCand, List.mem_singleton] at hv
      subst hv
      refine ⟨?_, ?_, ?_⟩ <;> simp [WfType, NoFunc, WellTyped]⟩, rfl, by unfold EBox.calcId; rw [e1]; rfl⟩
  obtain ⟨j', _, h2⟩ := writeBox_rt (ord := id) (toyTreeSers H) _ hg ht (fun l => List.Perm.refl _) (twinB (H twinBytes))
    ⟨⟨by show 1000 < 2 ^ 64; omega, Or.inr rfl, trivial, by show 0 ≤ 6; omega, by intro v hv; cases hv⟩, rfl,
      by unfold EBox.calcId; rw [e2]; rfl⟩
  exact ⟨j, j', _, _, h1, h2, e1 _, e2 _, rfl, rfl, rfl, rfl, rfl, by with_unfolding_all rfl, by with_unfolding_all rfl⟩

/-! ## Examples -/

/-- A box without an id, registers in the other order. -/
def jsonExample : List (Text × Json) :=
  [(kValue, .str ['2', '0', '0', '0', '0']), (kErgoTree, .str ['0', '7']), (kAssets, .arr []),
    (kRegisters, .obj [(['R', '5'], .str ['0', '4', '0', '4']), (['R', '4'], .str ['0', '4', '0', '2'])]),
    (kHeight, .num (.nat 5)), (kTransactionId, .str (hexEnc zeros32)), (kIndex, .num (.nat 1))]

/-- The bytes of the box. -/
def jsonExampleBytes : Bytes := [160, 156, 1, 7, 5, 0, 2, 4, 2, 4, 4] ++ zeros32 ++ [1]

/-- The box. -/
def jsonExampleBox : EBox (Fin 3) Empty Byte :=
  { boxId := sumHash jsonExampleBytes, value := 20000, tree := 7, tokens := none,
    regs := [.parsed (intConst 1), .parsed (intConst 2)], height := 5, txId := zeros32, index := 1 }

theorem jsonExample_id : jsonExampleBox.calcId toySers = .ok (sumHash jsonExampleBytes) := by
  have : jsonExampleBox.ser toySers = .ok jsonExampleBytes := by decide +kernel
  unfold EBox.calcId
  rw [this]
  rfl

/-- It is a box of JSON, so the round trips apply. -/
theorem jsonExample_good : JsonBox toySers (fun _ => True) (fun _ => True) jsonExampleBox := by
  refine ⟨⟨by decide, trivial, trivial, by decide, ?_⟩, rfl, jsonExample_id⟩
  intro v hv
  simp only [jsonExampleBox, EBox.toCand, List.mem_cons, List.not_mem_nil, or_false] at hv
  rcases hv with rfl | rfl <;> exact intConst_good _

/-- It is read from the JSON above. -/
theorem jsonExample_read : readBox toySers toyTp (.obj jsonExample) = .ok jsonExampleBox := by
  rw [readBox_iff]
  refine ⟨Or.inl rfl, ?_, ?_, by decide +kernel, jsonExample_id⟩
  · with_unfolding_all rfl
  · rw [show req [kTransactionId, kTxId] jsonExample = .ok (.str (hexEnc zeros32)) from rfl, Outcome.bind_ok, readDigest_hex rfl]
    rfl

/-- With a wrong id, twice the same field, a missing field, a gap in the registers: no box. -/
example : readBox toySers toyTp (.obj ((kBoxId, .str (hexEnc zeros32)) :: jsonExample)) ≠ .ok jsonExampleBox :=
  fun h => absurd ((C74_declared_id toySers toyTp jsonExample jsonExampleBox jsonExample_read
    (by decide) zeros32).1 h) (by decide +kernel)

/-- The example box with a `null` id. -/
example : readBox toySers toyTp (.obj ((kId, .null) :: jsonExample)) = .ok jsonExampleBox :=
  (C74_null_id toySers toyTp jsonExample (by decide) kId (Or.inr rfl)).trans jsonExample_read

example : readBox toySers toyTp (.obj ((kHeight, .num (.nat 5)) :: jsonExample)) = .err ∧
    readBox toySers toyTp (.obj (jsonExample.drop 1)) = .err ∧
    readRegs toySers (.obj [(['R', '5'], .str ['0', '4', '0', '4'])]) = .err :=
  ⟨by with_unfolding_all rfl, by with_unfolding_all rfl, by with_unfolding_all rfl⟩

/-- A register name of one two byte character. -/
example : readBox toySers toyTp (.obj ([(kValue, .num (.nat 1)), (kErgoTree, .str ['0', '7']), (kAssets, .arr []),
    (kRegisters, .obj [(['é'], .str [])])])) = .panic := by with_unfolding_all rfl

example : (kRegisters ∉ [kValue]) ∧ (['n', 'o', 't', 'e'] : Text) ∉ boxFields := by decide

end Verif
