import Verif.Spec.WireChain
import Verif.Proofs.WireExpr
import Verif.Proofs.SigmaTree
import Verif.Proofs.GfSpec

/-! Helper lemmas for the byte forms, continued. -/

set_option linter.unusedSimpArgs false
set_option linter.unusedVariables false

namespace Verif.Wire
open Merkle Sigma

variable {G B T : Type}

theorem each_nil {α : Type} (P : α → Bytes → Prop) : Each P [] [] := ⟨[], .nil, rfl⟩

theorem each_cons {α : Type} {P : α → Bytes → Prop} {a : α} {l : List α} {x y : Bytes} (h : P a x) (hl : Each P l y) :
    Each P (a :: l) (x ++ y) := by
  obtain ⟨bs, hb, rfl⟩ := hl
  exact ⟨x :: bs, .cons h hb, rfl⟩

theorem each_map {α : Type} {P : α → Bytes → Prop} (f : α → Bytes) (h : ∀ a, P a (f a)) : ∀ l : List α, Each P l (l.flatMap f)
  | [] => each_nil P
  | a :: l => by rw [List.flatMap_cons]; exact each_cons (h a) (each_map f h l)

theorem usize_ok {n : Nat} {b : Bytes} (h : putUsizeU32Be n = some b) : n < 2 ^ 32 ∧ b = four n := by
  unfold putUsizeU32Be at h
  by_cases hn : n < 2 ^ 32
  · rw [if_pos hn] at h
    cases h
    refine ⟨hn, ?_⟩
    rw [four_eq, BitVec.toNat_ofNat, Nat.mod_eq_of_lt hn]
  · rw [if_neg hn] at h; cases h

theorem indexed_each : ∀ (l : List Indexed) {bs : List Bytes}, l.mapM putIndexed = some bs →
    Each (fun i z => i.index < 2 ^ 32 ∧ z = four i.index ++ i.hash) l bs.flatten
  | [], bs, h => by simp at h; subst h; exact each_nil _
  | i :: l, bs, h => by
    rw [List.mapM_cons] at h
    simp only [Option.bind_eq_bind, Option.bind_eq_some_iff, Option.pure_def, Option.some.injEq] at h
    obtain ⟨x, hx, xs, hxs, rfl⟩ := h
    rw [List.flatten_cons]
    refine each_cons ?_ (indexed_each l hxs)
    unfold putIndexed at hx
    simp only [Option.bind_eq_bind, Option.bind_eq_some_iff, Option.pure_def, Option.some.injEq] at hx
    obtain ⟨y, hy, rfl⟩ := hx
    obtain ⟨h1, rfl⟩ := usize_ok hy
    exact ⟨h1, rfl⟩

theorem batch_form (p : Batch) (b : Bytes) (h : p.ser = some b) : BatchForm p b := by
  unfold Batch.ser at h
  simp only [Option.bind_eq_bind, Option.bind_eq_some_iff, Option.pure_def, Option.some.injEq] at h
  obtain ⟨x, hx, y, hy, is, his, rfl⟩ := h
  obtain ⟨h1, rfl⟩ := usize_ok hx
  obtain ⟨h2, rfl⟩ := usize_ok hy
  refine ⟨h1, h2, _, _, indexed_each _ his, each_map putLevel ?_ _, rfl⟩
  rintro ⟨o, s⟩
  cases o <;> cases s <;> rfl

section
variable [DecidableEq G]

theorem header_full (pc : PointCodec G) (h : Header G) (b : Bytes) (hb : h.ser pc = .ok b) : HeaderForm pc h b := by
  unfold Header.ser at hb
  obtain ⟨s, hs, hb⟩ := json_bind_ok.1 hb
  cases hb
  exact ⟨s, solution_form pc _ _ _ hs, by rw [header_form]⟩

theorem sized_of {P : Bytes → Prop} {x : Bytes} (h : P x) : Sized P (putLen x.length ++ x) :=
  ⟨x, h, by unfold putLen; rw [count32]⟩

theorem popow_form (pc : PointCodec G) (p : PoPowHeader G) (b : Bytes) (h : p.ser pc = .ok b) : PopowForm pc p b := by
  unfold PoPowHeader.ser at h
  obtain ⟨x, hx, h⟩ := json_bind_ok.1 h
  cases hp : p.proof.ser with
  | none => rw [hp] at h; cases h
  | some y =>
    rw [hp] at h
    cases h
    refine ⟨_, _, sized_of (header_full pc _ _ hx), sized_of (batch_form _ _ hp), ?_⟩
    unfold putLen
    rw [count32 p.interlinks.length]
    simp only [List.append_assoc]

theorem with_len {x : Outcome Bytes} {P : Bytes → Prop} (hp : ∀ b, x = .ok b → P b) {b : Bytes} (h : withLen x = .ok b) : Sized P b := by
  cases x with
  | ok y => cases h; exact sized_of (hp y rfl)
  | err => cases h
  | panic => cases h

theorem all_form {α : Type} {f : α → Outcome Bytes} {P : α → Bytes → Prop} (hf : ∀ a b, f a = .ok b → P a b) :
    ∀ (l : List α) {b : Bytes}, serAll f l = .ok b → Each (fun a => Sized (P a)) l b
  | [], b, h => by cases h; exact each_nil _
  | a :: l, b, h => by
    rw [serAll] at h
    obtain ⟨x, hx, h⟩ := json_bind_ok.1 h
    obtain ⟨y, hy, h⟩ := json_bind_ok.1 h
    cases h
    exact each_cons (with_len (hf a) hx) (all_form hf l hy)

theorem nipopow_form (pc : PointCodec G) (p : NipopowProof G) (b : Bytes) (h : p.ser pc = .ok b) : NipopowForm pc p b := by
  unfold NipopowProof.ser at h
  obtain ⟨x, hx, h⟩ := json_bind_ok.1 h
  obtain ⟨y, hy, h⟩ := json_bind_ok.1 h
  obtain ⟨z, hz, h⟩ := json_bind_ok.1 h
  cases h
  refine ⟨x, y, z, all_form (popow_form pc) _ hx, with_len (popow_form pc _) hy, all_form (header_full pc) _ hz, ?_⟩
  unfold putLen
  rw [count32, count32, putU32_eq, putU32_eq]

theorem reduced_form (E : Sers G B T) (r : ReducedTx G B T) (b : Bytes) (h : r.ser E = .ok b) : ReducedForm E r b := by
  unfold ReducedTx.ser at h
  obtain ⟨m, hm, h⟩ := json_bind_ok.1 h
  obtain ⟨n, hn, h⟩ := json_bind_ok.1 h
  cases h
  obtain ⟨h1, rfl⟩ := cnt32_ok hn
  unfold UnsignedTransaction.bytesToSign at hm
  obtain ⟨t, ht, hm⟩ := json_bind_ok.1 hm
  refine ⟨m, ?_, h1, ?_⟩
  · unfold UnsignedTransaction.toTx Tx.new at ht
    obtain ⟨o, _, ht⟩ := json_bind_ok.1 ht
    obtain ⟨i, _, ht⟩ := json_bind_ok.1 ht
    obtain ⟨o', _, ht⟩ := json_bind_ok.1 ht
    cases ht
    have := tx_form E _ _ _ _ hm
    simpa only [List.map_map, Function.comp_def, Input.toSign, UnsignedInput.toSign] using this
  · rw [putU32_eq, List.flatMap_def]
    have : (r.inputs.map (ReducedTx.serInput E.pc)) = r.inputs.map fun i => sigma E.pc i.prop ++ vlq i.cost.toNat := by
      apply List.map_congr_left
      intro i _
      unfold ReducedTx.serInput
      rw [sigma_eq, putU64_eq]
    rw [this]

end

theorem gf_form (a : Gf.Gf) : IsGf a (Gf.toBytes a) := by
  refine ⟨Gf.toBytes_length a, ?_⟩
  have key : ∀ (w : BitVec 64) (i : Nat), i < 64 → ((Gf.wordBytes w).getD (i / 8) 0).getLsbD (i % 8) = w.getLsbD i := by
    intro w i hi
    have h8 : i / 8 < 8 := by omega
    unfold Gf.wordBytes
    rw [List.getD_eq_getElem?_getD, List.getElem?_map, List.getElem?_range h8]
    simp only [Option.map_some, Option.getD_some]
    rw [Gf.byte_get w _ h8, BitVec.getLsbD_extractLsb']
    have : 8 * (i / 8) + i % 8 = i := by omega
    rw [this]
    simp; omega
  intro i hi
  have hl : ∀ w : BitVec 64, (Gf.wordBytes w).length = 8 := by intro w; simp [Gf.wordBytes]
  unfold Gf.toBytes gfBit
  rw [List.getD_eq_getElem?_getD]
  by_cases h1 : i < 64
  · rw [if_pos h1, List.append_assoc, List.getElem?_append_left (by rw [hl]; omega), ← List.getD_eq_getElem?_getD]
    exact key _ _ h1
  · rw [if_neg h1, List.append_assoc, List.getElem?_append_right (by rw [hl]; omega), hl]
    by_cases h2 : i < 128
    · rw [if_pos h2, List.getElem?_append_left (by rw [hl]; omega)]
      have := key a.w1 (i - 64) (by omega)
      rw [← this, List.getD_eq_getElem?_getD, show i / 8 - 8 = (i - 64) / 8 by omega, show i % 8 = (i - 64) % 8 by omega]
    · rw [if_neg h2, List.getElem?_append_right (by rw [hl]; omega), hl]
      have := key a.w2 (i - 128) (by omega)
      rw [← this, List.getD_eq_getElem?_getD, show i / 8 - 8 - 8 = (i - 128) / 8 by omega, show i % 8 = (i - 128) % 8 by omega]

theorem poly_loop (cs : List Gf.Gf) : ∀ (n i : Nat) {b : Bytes}, Gf.toBytesLoop cs n i = .ok b →
    Each IsGf ((cs.drop i).take n) b ∧ b.length = 24 * n
  | 0, i, b, h => by cases h; exact ⟨by simpa using each_nil _, rfl⟩
  | n + 1, i, b, h => by
    rw [Gf.toBytesLoop] at h
    obtain ⟨c, hc, h⟩ := json_bind_ok.1 h
    obtain ⟨r, hr, h⟩ := json_bind_ok.1 h
    cases h
    obtain ⟨h1, h2⟩ := poly_loop cs n (i + 1) hr
    have : cs.drop i = c :: cs.drop (i + 1) := by
      unfold Gf.coeff at hc
      cases hx : cs[i]? with
      | none => rw [hx] at hc; cases hc
      | some d =>
        rw [hx] at hc
        cases hc
        obtain ⟨hl, he⟩ := List.getElem?_eq_some_iff.1 hx
        rw [List.drop_eq_getElem_cons hl, he]
    rw [this, List.take_succ_cons]
    exact ⟨each_cons (gf_form c) h1, by rw [List.length_append, h2, Gf.toBytes_length]; omega⟩

theorem scalar_form {q : Nat} [NeZero q] (hq : q ≤ 2 ^ 256) (z : ZMod q) : IsScalar z (scalarBytes z) := by
  refine ⟨scalarBytes_length z, ?_⟩
  have h1 : z.val < 256 ^ 32 := lt_of_lt_of_le (ZMod.val_lt z) (by rw [show (256 : Nat) ^ 32 = 2 ^ 256 from by norm_num]; exact hq)
  exact Sigma.beNat_natBe 32 z.val h1

mutual
theorem sig_form {q : Nat} [NeZero q] (hq : q ≤ 2 ^ 256) (t : Unchecked G q) (c : Bool) (b : Bytes) (h : sigWrite t c = .ok b) :
    SigForm t c b := by
  cases t with
  | leaf p m e z => rw [sigWrite] at h; cases h; rw [SigForm]; exact ⟨_, scalar_form hq z, rfl⟩
  | conj k e l =>
    cases k with
    | and =>
      rw [sigWrite] at h
      obtain ⟨x, hx, h⟩ := json_bind_ok.1 h
      cases h
      rw [SigForm]
      exact ⟨x, sig_all hq l x hx, rfl⟩
    | or =>
      rw [sigWrite] at h
      obtain ⟨x, hx, h⟩ := json_bind_ok.1 h
      cases h
      rw [SigForm]
      exact ⟨x, sig_or hq l x hx, rfl⟩
    | thr k p =>
      rw [sigWrite] at h
      obtain ⟨y, hy, h⟩ := json_bind_ok.1 h
      obtain ⟨x, hx, h⟩ := json_bind_ok.1 h
      cases h
      unfold polyBytesChecked at hy
      obtain ⟨z, hz, hy⟩ := json_bind_ok.1 hy
      obtain ⟨h1, h2⟩ := poly_loop _ _ _ hz
      by_cases hk : l.length < k.toNat
      · rw [if_pos hk] at hy; cases hy
      · rw [if_neg hk] at hy
        by_cases hl : z.length = (l.length - k.toNat) * 24
        · rw [if_pos hl] at hy
          cases hy
          rw [SigForm]
          exact ⟨x, y, by omega, by omega, h1, sig_all hq l x hx, by rw [List.append_assoc]⟩
        · rw [if_neg hl] at hy; cases hy
theorem sig_all {q : Nat} [NeZero q] (hq : q ≤ 2 ^ 256) (l : List (Unchecked G q)) (b : Bytes) (h : sigWriteAll l = .ok b) :
    SigAll l b := by
  cases l with
  | nil => rw [sigWriteAll] at h; cases h; rw [SigAll]
  | cons t l =>
    rw [sigWriteAll] at h
    obtain ⟨x, hx, h⟩ := json_bind_ok.1 h
    obtain ⟨y, hy, h⟩ := json_bind_ok.1 h
    cases h
    rw [SigAll]
    exact ⟨x, y, sig_form hq t false x hx, sig_all hq l y hy, rfl⟩
theorem sig_or {q : Nat} [NeZero q] (hq : q ≤ 2 ^ 256) (l : List (Unchecked G q)) (b : Bytes) (h : sigWriteOr l = .ok b) :
    SigOr l b := by
  match l, h with
  | [], h => rw [sigWriteOr] at h; cases h; rw [SigOr]
  | [t], h => rw [sigWriteOr] at h; rw [SigOr]; exact sig_form hq t false b h
  | t :: u :: l, h =>
    rw [sigWriteOr] at h
    · obtain ⟨x, hx, h⟩ := json_bind_ok.1 h
      obtain ⟨y, hy, h⟩ := json_bind_ok.1 h
      cases h
      rw [SigOr]
      · exact ⟨x, y, sig_form hq t true x hx, sig_or hq (u :: l) y hy, rfl⟩
      · intro h; cases h
    · intro h; cases h
end

theorem vlq_small {n : Nat} (h : n < 128) : vlq n = [BitVec.ofNat 8 n] := by rw [vlq, if_pos h]

theorem two_eq (n : Nat) : Sigma.putI16Be n = two n := rfl

section
variable [DecidableEq G]

theorem prop_form (E : Sers G B T) (p : LeafProp G) : TreeForm E (TypeForm true) (leafTree p) (propBytes E.pc p) := by
  unfold leafTree
  rw [TreeForm]
  refine ⟨[1, 8] ++ sigma E.pc p.toSB, [0x73, 0], [], ?_, ?_, ?_, ?_⟩
  · rw [if_pos rfl]
    refine ⟨8 :: sigma E.pc p.toSB ++ [], each_cons ⟨[8], sigma E.pc p.toSB, ?_, ?_, rfl⟩ (each_nil _), by simp, ?_⟩
    · exact (type_form .sigmaProp [8]).1 rfl
    · rw [DataForm]
    · rw [List.length_singleton, vlq_small (by omega), List.append_nil]; rfl
  · rw [ExprForm]
    show _ = node _ (vlq 0)
    rw [vlq_small (by omega)]; rfl
  · rw [if_neg (by simp)]
  · rw [propBytes, sigma_eq]
    simp [treeByte]

theorem msg_form (pc : PointCodec G) (m : Msg G) : m.bytes pc = msgForm pc m := by cases m <;> rfl

mutual
theorem fs_form {q : Nat} (E : Sers G B T) (t : Unchecked G q) (b : Bytes) (h : fsUnchecked E.pc t = .ok b) : FsForm E t b := by
  cases t with
  | leaf p m e z =>
    rw [fsUnchecked] at h
    rw [FsForm]
    cases m with
    | none => cases h
    | some a =>
      cases h
      exact ⟨_, a, prop_form E p, rfl, by rw [msg_form, two_eq, two_eq]; rfl⟩
  | conj k e l =>
    rw [fsUnchecked] at h
    obtain ⟨x, hx, h⟩ := json_bind_ok.1 h
    cases h
    have := fs_all E l x hx
    cases k <;> rw [FsForm] <;> exact ⟨x, this, rfl⟩
theorem fs_all {q : Nat} (E : Sers G B T) (l : List (Unchecked G q)) (b : Bytes) (h : fsUncheckedList E.pc l = .ok b) : FsAll E l b := by
  cases l with
  | nil => rw [fsUncheckedList] at h; cases h; rw [FsAll]
  | cons t l =>
    rw [fsUncheckedList] at h
    obtain ⟨x, hx, h⟩ := json_bind_ok.1 h
    obtain ⟨y, hy, h⟩ := json_bind_ok.1 h
    cases h
    rw [FsAll]
    exact ⟨x, y, fs_form E t x hx, fs_all E l y hy, rfl⟩
end

end

theorem addr_form (a : PeerAddr) (b : Bytes) (h : a.ser = some b) : AddrForm a b ∧ a.ipSize = 4 := by
  cases a with
  | v4 a b c d port =>
    rw [PeerAddr.ser] at h
    cases h
    refine ⟨?_, rfl⟩
    rw [AddrForm, putU32_eq, BitVec.toNat_setWidth, Nat.mod_eq_of_lt (by have := port.isLt; omega)]
  | v6 => cases h

theorem short_form (s b : Bytes) (h : putShortString s = some b) : ShortForm s b := by
  unfold putShortString at h
  by_cases hn : s.length > 255
  · rw [if_pos hn] at h; cases h
  · rw [if_neg hn] at h; cases h; exact ⟨by omega, rfl⟩

theorem feature_form (f : PeerFeature) (b : Bytes) (h : f.ser = some b) : FeatureForm f b := by
  cases f with
  | localAddress a =>
    rw [PeerFeature.ser] at h
    simp only [Option.bind_eq_bind, Option.bind_eq_some_iff] at h
    obtain ⟨x, hx, h⟩ := h
    by_cases hn : x.length < 2 ^ 16
    · rw [if_pos hn] at h
      cases h
      rw [FeatureForm]
      refine ⟨x, (addr_form _ _ hx).1, ?_⟩
      rw [count16, Nat.mod_eq_of_lt hn]
      rfl
    · rw [if_neg hn] at h; cases h

theorem features_form : ∀ (l : List PeerFeature) {b : Bytes}, PeerSpec.serFeatures l = some b → Each FeatureForm l b
  | [], b, h => by cases h; exact each_nil _
  | f :: l, b, h => by
    rw [PeerSpec.serFeatures] at h
    simp only [Option.bind_eq_bind, Option.bind_eq_some_iff, Option.some.injEq] at h
    obtain ⟨x, hx, y, hy, rfl⟩ := h
    exact each_cons (feature_form f x hx) (features_form l hy)

theorem peer_form (s : PeerSpec) (b : Bytes) (h : s.ser = some b) : PeerForm s b := by
  unfold PeerSpec.ser at h
  simp only [Option.bind_eq_bind, Option.bind_eq_some_iff, Option.some.injEq] at h
  obtain ⟨w, hw, x, hx, y, hy, z, hz, rfl⟩ := h
  have hd : (match s.declaredAddr with
      | none => y = [0]
      | some a => ∃ u, AddrForm a u ∧ y = 1 :: 4 :: u) := by
    cases hs : s.declaredAddr with
    | none => rw [hs] at hy; cases hy; rfl
    | some a =>
      rw [hs, PeerSpec.serDeclared] at hy
      simp only [Option.bind_eq_bind, Option.bind_eq_some_iff, Option.some.injEq] at hy
      obtain ⟨u, hu, rfl⟩ := hy
      obtain ⟨h1, h2⟩ := addr_form a u hu
      exact ⟨u, h1, by rw [h2]; rfl⟩
  cases hf : s.features with
  | none =>
    rw [hf] at hz
    cases hz
    exact ⟨w, x, y, [], short_form _ _ hw, short_form _ _ hx, hd, by rw [hf]; exact each_nil _, by
      simp [hf, ProtocolVersion.ser, putU8]⟩
  | some l =>
    rw [hf] at hz
    simp only [Option.map_eq_some_iff] at hz
    obtain ⟨v, hv, rfl⟩ := hz
    exact ⟨w, x, y, v, short_form _ _ hw, short_form _ _ hx, hd, by rw [hf]; exact features_form l hv, by
      simp [hf, ProtocolVersion.ser, putU8]⟩

end Verif.Wire
