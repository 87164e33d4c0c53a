import Verif.Spec.Box
import Verif.Proofs.Constant
import Verif.Proofs.FMap
import Verif.Proofs.NonExp
import Verif.Props.Constant
import Verif.Props.Value

set_option linter.unusedSimpArgs false
set_option linter.unusedVariables false

/-!
# Boxes, registers, extensions: round trips
-/

namespace Verif
open Spec

/-! ## Generic -/

theorem serMany_rt {α : Type} {P : α → Prop} {ser : α → Outcome Bytes} {p : Parser α} (h : Rto P ser p) :
    ∀ l : List α, (∀ a ∈ l, P a) → ∃ bs, serMany ser l = .ok bs ∧
      ∀ rest, replicateP l.length p (bs ++ rest) = some (l, rest)
  | [], _ => ⟨[], rfl, fun _ => rfl⟩
  | a :: l, hl => by
    obtain ⟨b, e1, p1⟩ := h a (hl a (by simp))
    obtain ⟨bs, e2, p2⟩ := serMany_rt h l (fun x hx => hl x (by simp [hx]))
    refine ⟨b ++ bs, by simp [serMany, e1, e2], fun rest => ?_⟩
    simp only [List.length_cons, replicateP, List.append_assoc]
    rw [Parser.bind_some (p1 _), Parser.bind_some (p2 _)]
    rfl

theorem serMany_map_rt {α β : Type} {P : α → Prop} {ser : α → Outcome Bytes} {p : Parser β} {f : β → α}
    (h : ∀ a, P a → ∃ b bs, f b = a ∧ ser a = .ok bs ∧ ∀ rest, p (bs ++ rest) = some (b, rest)) :
    ∀ l : List α, (∀ a ∈ l, P a) → ∃ bs m, serMany ser l = .ok bs ∧ m.map f = l ∧
      ∀ rest, replicateP l.length p (bs ++ rest) = some (m, rest)
  | [], _ => ⟨[], [], rfl, rfl, fun _ => rfl⟩
  | a :: l, hl => by
    obtain ⟨x, b, e0, e1, p1⟩ := h a (hl a (by simp))
    obtain ⟨bs, m, e2, e3, p2⟩ := serMany_map_rt h l (fun x hx => hl x (by simp [hx]))
    refine ⟨b ++ bs, x :: m, by simp [serMany, e1, e2], by simp [e0, e3], fun rest => ?_⟩
    simp only [List.length_cons, replicateP, List.append_assoc]
    rw [Parser.bind_some (p1 _), Parser.bind_some (p2 _)]
    rfl

theorem Rto.prefix_free {α : Type} {P : α → Prop} {ser : α → Outcome Bytes} {p : Parser α} (h : Rto P ser p)
    {a b : α} (ha : P a) (hb : P b) {x y r r' : Bytes} (ea : ser a = .ok x) (eb : ser b = .ok y)
    (e : x ++ r = y ++ r') : a = b ∧ r = r' := by
  obtain ⟨b1, e1, p1⟩ := h a ha
  obtain ⟨b2, e2, p2⟩ := h b hb
  rw [ea] at e1; rw [eb] at e2
  cases e1; cases e2
  have h := p1 r
  rw [e, p2 r'] at h
  simp only [Option.some.injEq, Prod.mk.injEq] at h
  exact ⟨h.1.symm, h.2.symm⟩

theorem toNat_ofNat8 {n : Nat} (h : n ≤ 255) : (BitVec.ofNat 8 n).toNat = n := by
  rw [BitVec.toNat_ofNat]; omega

theorem toNat_ofNat16 {n : Nat} (h : n ≤ 65535) : (BitVec.ofNat 16 n).toNat = n := by
  rw [BitVec.toNat_ofNat]; omega

theorem toNat_ofNat32 {n : Nat} (h : n < 2 ^ 32) : (BitVec.ofNat 32 n).toNat = n := by
  rw [BitVec.toNat_ofNat]; omega

theorem putCount16_ok {n : Nat} (h : n ≤ 65535) : putCount16 n = .ok (putU16 (BitVec.ofNat 16 n)) := by
  unfold putCount16 putUsizeAsU16
  rw [if_pos (by omega)]

theorem putCount32_ok {n : Nat} (h : n < 2 ^ 32) : putCount32 n = .ok (putU32 (BitVec.ofNat 32 n)) := by
  unfold putCount32
  rw [if_pos h]

theorem putCount8_ok {n : Nat} (h : n ≤ 255) : putCount8 n = .ok (putU8 (BitVec.ofNat 8 n)) := by
  unfold putCount8
  rw [if_pos (by omega)]

/-! ## Register expressions -/

theorem getU8_put (b : Byte) (s : Bytes) : getU8 (putU8 b ++ s) = some (b, s) := rfl

namespace RItem
variable {G B T : Type}

/-- Constants start with a type code of at most 112. -/
theorem parseCode_le {utf8 : Bytes → Bool} {p : Parser SType} {c : Byte} {s : Bytes} {x : SType × Bytes}
    (h : SType.parseCode utf8 p c s = some x) : c.toNat ≤ 112 := by
  by_contra hc
  have hp : ∀ k, 8 < k → SType.primOf k = none := by
    intro k hk
    unfold SType.primOf
    split <;> first | omega | rfl
  have hn : ∀ k : Byte, k.toNat ≤ 112 → c ≠ k := by
    intro k hk e
    subst e; omega
  unfold SType.parseCode SType.onPrim at h
  simp only [hp c.toNat (by omega), hp (c.toNat - 12) (by omega), hp (c.toNat - 24) (by omega),
    hp (c.toNat - 36) (by omega), hp (c.toNat - 48) (by omega), hp (c.toNat - 60) (by omega),
    hp (c.toNat - 72) (by omega), hp (c.toNat - 84) (by omega)] at h
  repeat (first
    | rw [if_neg (hn _ (by decide))] at h)
  first
    | cases h
    | (simp at h)

theorem goodItems_iff (utf8 : Bytes → Bool) (bwf : B → Prop) (l : List (RItem G B)) :
    GoodItems utf8 bwf l ↔ ∀ x ∈ l, GoodItem utf8 bwf x := by
  induction l with
  | nil => simp [GoodItems]
  | cons a l ih => simp [GoodItems, ih]

theorem productive_parseBody (E : Sers G B T) (hb : NonExp E.bc.parse) : Productive (parseBody E) where
  nonExp p hp := by
    unfold parseBody
    refine NonExp.bind NonExp.getU8 (fun tag => ?_)
    have := Constant.nonExp_parseCode E.utf8 E.pc E.bc hb tag
    nonexp
  step p q s hp hq h := by
    unfold parseBody
    refine getU8_bind_agree s (fun tag => ?_)
    agree

theorem parse_eq (E : Sers G B T) (hb : NonExp E.bc.parse) : parse E = parseBody E (parse E) :=
  fixP_eq (productive_parseBody E hb)

theorem nonExp_parse (E : Sers G B T) (hb : NonExp E.bc.parse) : NonExp (parse E) :=
  fixP_nonExp (productive_parseBody E hb)

theorem parse_cons (E : Sers G B T) (hb : NonExp E.bc.parse) (c : Byte) (s : Bytes) :
    parse E (c :: s) = parseBody E (parse E) (c :: s) :=
  congrFun (parse_eq E hb) (c :: s)

theorem rt_const [DecidableEq G] (E : Sers G B T) {bwf : B → Prop} {twf : T → Prop} (h : GoodSers E bwf twf)
    (c : Constant G B) (hc : GoodConst E.utf8 bwf c) :
    ∃ bs, c.ser E.pc E.bc = .ok bs ∧ ∀ rest, parse E (bs ++ rest) = some (.const c, rest) := by
  obtain ⟨bs, e, hp⟩ := C14_roundtrip E.utf8 E.pc E.bc bwf h.box c hc.1 hc.2.1 hc.2.2
  refine ⟨bs, e, fun rest => ?_⟩
  have h1 := hp rest
  unfold Constant.parse at h1
  obtain ⟨code, s', g1, g2⟩ := Parser.bind_eq_some.1 h1
  have g3 := g2
  unfold Constant.parseCode at g3
  obtain ⟨t, s'', g4, _⟩ := Parser.bind_eq_some.1 g3
  have hle := parseCode_le g4
  rw [parse_eq E h.boxNE]
  unfold parseBody
  rw [Parser.bind_some g1, if_pos hle, Parser.bind_some g2]
  rfl

mutual
theorem rt [DecidableEq G] (E : Sers G B T) {bwf : B → Prop} {twf : T → Prop} (h : GoodSers E bwf twf) :
    ∀ x : RItem G B, GoodItem E.utf8 bwf x →
      ∃ bs, x.ser E = .ok bs ∧ ∀ rest, parse E (bs ++ rest) = some (x, rest)
  | .const c, hx => by
    rw [GoodItem] at hx
    rw [ser]
    exact rt_const E h c hx
  | .tuple l, hx => by
    rw [GoodItem] at hx
    obtain ⟨h2, h255, hl⟩ := hx
    obtain ⟨bs, e, hp⟩ := rtAll E h l hl
    refine ⟨putU8 tupleCode ++ putU8 (BitVec.ofNat 8 l.length) ++ bs, by rw [ser, e]; rfl, fun rest => ?_⟩
    rw [parse_eq E h.boxNE]
    unfold parseBody
    simp only [List.append_assoc]
    rw [Parser.bind_some (getU8_put _ _), if_neg (by decide), if_pos rfl, Parser.bind_some (getU8_put _ _),
      toNat_ofNat8 h255, Parser.bind_some (hp rest), if_pos ⟨h2, h255⟩]
    rfl
theorem rtAll [DecidableEq G] (E : Sers G B T) {bwf : B → Prop} {twf : T → Prop} (h : GoodSers E bwf twf) :
    ∀ l : List (RItem G B), GoodItems E.utf8 bwf l →
      ∃ bs, serAll E l = .ok bs ∧ ∀ rest, replicateP l.length (parse E) (bs ++ rest) = some (l, rest)
  | [], _ => ⟨[], by rw [serAll], fun _ => rfl⟩
  | x :: l, hx => by
    rw [GoodItems] at hx
    obtain ⟨b, e1, p1⟩ := rt E h x hx.1
    obtain ⟨bs, e2, p2⟩ := rtAll E h l hx.2
    refine ⟨b ++ bs, by rw [serAll, e1, e2]; rfl, fun rest => ?_⟩
    simp only [List.length_cons, replicateP, List.append_assoc]
    rw [Parser.bind_some (p1 _), Parser.bind_some (p2 _)]
    rfl
end

theorem parsed [DecidableEq G] (E : Sers G B T) {bwf : B → Prop} (hp : BoxParsed E.bc bwf) :
    Post (GoodItem E.utf8 bwf) (parse E) := by
  refine Post.fixP (fun p ih => ?_)
  unfold parseBody
  refine Post.bind Post.top (fun tag _ => Post.ite (fun _ => ?_) (fun _ => Post.ite (fun _ => ?_) (fun _ => Post.fail)))
  · unfold Constant.parseCode
    refine Post.bind (Q := GoodConst E.utf8 bwf) ?_ (fun c hc => Post.pure (by rw [GoodItem]; exact hc))
    refine Post.bind (SType.post_parseCode E.utf8 (SType.parsed_good E.utf8) tag) (fun t ht => ?_)
    exact Post.bind (Literal.parsed E.pc E.bc bwf hp t) (fun v hv => Post.pure ⟨ht.1, ht.2, hv⟩)
  · refine Post.bind Post.top (fun n _ => Post.bind (Post.replicateP ih _) (fun l hl => Post.ite (fun hc => Post.pure ?_)
      (fun _ => Post.fail)))
    rw [GoodItem]
    exact ⟨hc.1, hc.2, (goodItems_iff _ _ l).2 hl.2⟩

mutual
/-- The constant a register tuple stands for is of the tuple type. -/
theorem value_typed (utf8 : Bytes → Bool) (bwf : B → Prop) : ∀ x : RItem G B, GoodItem utf8 bwf x →
    WellTyped bwf x.value x.tpe ∧ WfType utf8 x.tpe ∧ NoFunc x.tpe
  | .const c, h => by
    rw [GoodItem] at h
    rw [value, tpe]
    exact ⟨h.2.2, h.1, h.2.1⟩
  | .tuple l, h => by
    rw [GoodItem] at h
    obtain ⟨h2, h255, hl⟩ := h
    obtain ⟨a, b, c, d⟩ := values_typed utf8 bwf l hl
    rw [value, tpe, WellTyped, WfType, NoFunc]
    have e1 : (values l).length = l.length := d.1
    have e2 : (tpes l).length = l.length := d.2
    exact ⟨⟨by omega, by omega, a⟩, ⟨by omega, by omega, b⟩, c⟩
theorem values_typed (utf8 : Bytes → Bool) (bwf : B → Prop) : ∀ l : List (RItem G B), GoodItems utf8 bwf l →
    Pointwise bwf (values l) (tpes l) ∧ WfTypes utf8 (tpes l) ∧ NoFuncs (tpes l) ∧
      (values l).length = l.length ∧ (tpes l).length = l.length
  | [], _ => by simp [values, tpes, Pointwise, WfTypes, NoFuncs]
  | x :: l, h => by
    rw [GoodItems] at h
    obtain ⟨a, b, c⟩ := value_typed utf8 bwf x h.1
    obtain ⟨a', b', c', d⟩ := values_typed utf8 bwf l h.2
    rw [values, tpes, Pointwise, WfTypes, NoFuncs]
    exact ⟨⟨a, a'⟩, ⟨b, b'⟩, ⟨c, c'⟩, by simp [d.1], by simp [d.2]⟩
end

end RItem

/-! ## Registers -/

namespace Regs
variable {G B T : Type}

theorem regVal_rt [DecidableEq G] (E : Sers G B T) {bwf : B → Prop} {twf : T → Prop} (h : GoodSers E bwf twf)
    (v : RegVal G B) (hv : GoodReg E.utf8 bwf v) :
    ∃ x bs, RegVal.ofItem x = v ∧ v.ser E = .ok bs ∧ ∀ rest, RItem.parse E (bs ++ rest) = some (x, rest) := by
  cases v with
  | parsed c =>
    obtain ⟨bs, e, p⟩ := RItem.rt E h (.const c) (by rw [GoodItem]; exact hv)
    exact ⟨_, bs, rfl, e, p⟩
  | tupleExpr l =>
    obtain ⟨bs, e, p⟩ := RItem.rt E h (.tuple l) (by rw [GoodItem]; exact hv)
    exact ⟨_, bs, rfl, e, p⟩
  | invalid b => exact hv.elim

theorem rt [DecidableEq G] (E : Sers G B T) {bwf : B → Prop} {twf : T → Prop} (h : GoodSers E bwf twf) :
    Rto (GoodRegs E.utf8 bwf) (Regs.ser E) (Regs.parse E) := by
  intro rs hr
  obtain ⟨bs, m, e1, e2, hp⟩ := serMany_map_rt (regVal_rt E h) rs hr.2
  refine ⟨putU8 (BitVec.ofNat 8 rs.length) ++ bs, by unfold Regs.ser; rw [e1]; rfl, fun rest => ?_⟩
  unfold Regs.parse
  have := hr.1
  rw [List.append_assoc, Parser.bind_some (getU8_put _ _), toNat_ofNat8 (by omega), Parser.bind_some (hp rest), e2]
  unfold Regs.ofVec
  rw [if_neg (by simp [maxSize, NmId.numRegs]; omega)]
  rfl

theorem nonExp_parse (E : Sers G B T) (hb : NonExp E.bc.parse) : NonExp (Regs.parse E) := by
  unfold Regs.parse
  have := RItem.nonExp_parse E hb
  nonexp

theorem parsed [DecidableEq G] (E : Sers G B T) {bwf : B → Prop} (hp : BoxParsed E.bc bwf) :
    Post (GoodRegs E.utf8 bwf) (Regs.parse E) := by
  unfold Regs.parse
  refine Post.bind Post.top (fun n _ => Post.bind (Post.replicateP (RItem.parsed E hp) _) (fun l hl => ?_))
  refine Post.ofOption (fun rs hrs => ?_)
  unfold Regs.ofVec at hrs
  split at hrs
  · cases hrs
  · rename_i hc
    simp only [Option.some.injEq] at hrs
    subst hrs
    refine ⟨by simpa [maxSize, NmId.numRegs] using hc, fun v hv => ?_⟩
    obtain ⟨x, hx, rfl⟩ := List.mem_map.1 hv
    have := hl.2 x hx
    cases x with
    | const c => rw [GoodItem] at this; exact this
    | tuple l => rw [GoodItem] at this; exact this

end Regs

/-! ## Context extensions, proofs -/

section
variable {G B T : Type}

theorem Extension.entry_rt [DecidableEq G] (E : Sers G B T) {bwf : B → Prop} {twf : T → Prop}
    (h : GoodSers E bwf twf) :
    Rto (fun p : Byte × Constant G B => GoodConst E.utf8 bwf p.2) (Extension.serEntry E) (Extension.getEntry E) := by
  intro p hp
  obtain ⟨i, c⟩ := p
  obtain ⟨bs, e, hr⟩ := C14_roundtrip E.utf8 E.pc E.bc bwf h.box c hp.1 hp.2.1 hp.2.2
  refine ⟨putU8 i ++ bs, by unfold Extension.serEntry; simp only [e]; rfl, fun rest => ?_⟩
  unfold Extension.getEntry
  rw [List.append_assoc, Parser.bind_some (getU8_put _ _), Parser.bind_some (hr rest)]
  rfl

theorem FMap.insert_new {κ ν : Type} [DecidableEq κ] : ∀ (m : FMap κ ν) (k : κ) (v : ν), k ∉ m.map Prod.fst →
    FMap.insert m k v = m ++ [(k, v)]
  | [], _, _, _ => rfl
  | (k', v') :: m, k, v, h => by
    simp only [List.map_cons, List.mem_cons, not_or] at h
    rw [FMap.insert, if_neg (fun e => h.1 e.symm), FMap.insert_new m k v h.2]
    rfl

theorem Extension.insertAll_ok : ∀ (l m : Extension G B), (m ++ l).Ok → Extension.insertAll m l = m ++ l
  | [], m, _ => by simp [Extension.insertAll]
  | (k, v) :: l, m, h => by
    have hk : k ∉ m.map Prod.fst := by
      unfold FMap.Ok at h
      rw [List.map_append, List.nodup_append] at h
      intro hm
      exact h.2.2 _ hm k (by simp) rfl
    rw [Extension.insertAll, FMap.insert_new m k v hk, Extension.insertAll_ok l (m ++ [(k, v)]) (by simpa using h)]
    simp

theorem Extension.rt [DecidableEq G] (E : Sers G B T) {bwf : B → Prop} {twf : T → Prop} (h : GoodSers E bwf twf) :
    Rto (GoodExt E.utf8 bwf) (Extension.ser E) (Extension.parse E) := by
  intro m hm
  obtain ⟨bs, e, hp⟩ := serMany_rt (Extension.entry_rt E h) m hm.consts
  refine ⟨putU8 (BitVec.ofNat 8 m.length) ++ bs, by unfold Extension.ser; rw [e]; rfl, fun rest => ?_⟩
  unfold Extension.parse
  rw [List.append_assoc, Parser.bind_some (getU8_put _ _), toNat_ofNat8 hm.count, Parser.bind_some (hp rest),
    Extension.insertAll_ok m [] (by simpa using hm.keys)]
  rfl

theorem ProofBytes.rt : RoundTrips GoodProof ProofBytes.ser ProofBytes.parse := by
  intro p hp rest
  cases p with
  | empty =>
    unfold ProofBytes.parse ProofBytes.ser
    rw [Parser.bind_some (getU16_put _ _), if_pos rfl]
    rfl
  | some b =>
    obtain ⟨h1, h2⟩ : 1 ≤ b.length ∧ b.length ≤ 65535 := hp
    unfold ProofBytes.parse ProofBytes.ser
    have hne : BitVec.ofNat 16 b.length ≠ 0 := by
      intro e
      have := congrArg BitVec.toNat e
      rw [toNat_ofNat16 h2] at this
      simp at this
      subst this
      simp at h1
    simp only [List.append_assoc]
    rw [Parser.bind_some (getU16_put _ _), if_neg hne, toNat_ofNat16 h2, Parser.bind_some (readExact_append _ _)]
    rfl

theorem ProverResult.rt [DecidableEq G] (E : Sers G B T) {bwf : B → Prop} {twf : T → Prop} (h : GoodSers E bwf twf) :
    Rto (fun p : ProverResult G B => GoodProof p.proof ∧ GoodExt E.utf8 bwf p.extension) (ProverResult.ser E)
      (ProverResult.parse E) := by
  intro p hp
  obtain ⟨bs, e, hr⟩ := Extension.rt E h p.extension hp.2
  refine ⟨p.proof.ser ++ bs, by unfold ProverResult.ser; rw [e]; rfl, fun rest => ?_⟩
  unfold ProverResult.parse
  rw [List.append_assoc, Parser.bind_some (ProofBytes.rt p.proof hp.1 _), Parser.bind_some (hr rest)]
  rfl

end

/-! ## Token ids by index -/

namespace IdSet

theorem indexOf_some : ∀ (s : IdSet) (x : TokenId), x ∈ s → ∃ i, indexOf s x = some i ∧ s[i]? = some x ∧ i < s.length
  | [], _, h => by simp at h
  | y :: s, x, h => by
    by_cases e : y = x
    · exact ⟨0, by simp [indexOf, e], by simp [e], by simp⟩
    · obtain ⟨i, h1, h2, h3⟩ := indexOf_some s x (by
        rcases List.mem_cons.1 h with h | h
        · exact absurd h.symm e
        · exact h)
      exact ⟨i + 1, by simp [indexOf, e, h1], by simpa using h2, by simpa using h3⟩

theorem mem_add (s : IdSet) (x y : TokenId) : y ∈ s.add x ↔ y ∈ s ∨ y = x := by
  unfold add
  split
  · rename_i h
    constructor
    · exact Or.inl
    · rintro (h' | rfl)
      · exact h'
      · exact h
  · simp

theorem mem_foldl (l : List TokenId) : ∀ (s : IdSet) (y : TokenId), y ∈ l.foldl add s ↔ y ∈ s ∨ y ∈ l := by
  induction l with
  | nil => simp
  | cons a l ih =>
    intro s y
    rw [List.foldl_cons, ih, mem_add, List.mem_cons]
    constructor
    · rintro ((h | h) | h)
      · exact Or.inl h
      · exact Or.inr (Or.inl h)
      · exact Or.inr (Or.inr h)
    · rintro (h | h | h)
      · exact Or.inl (Or.inl h)
      · exact Or.inl (Or.inr h)
      · exact Or.inr h

theorem mem_ofList (l : List TokenId) (y : TokenId) : y ∈ ofList l ↔ y ∈ l := by
  unfold ofList
  rw [mem_foldl]; simp

theorem nodup_foldl (l : List TokenId) : ∀ (s : IdSet), s.Nodup → (l.foldl add s).Nodup := by
  induction l with
  | nil => intro s h; exact h
  | cons a l ih =>
    intro s h
    rw [List.foldl_cons]
    apply ih
    unfold add
    split
    · exact h
    · rename_i ha
      rw [List.nodup_append]
      refine ⟨h, by simp, ?_⟩
      intro x hx y hy
      simp only [List.mem_singleton] at hy
      subst hy
      rintro rfl
      exact ha hx

theorem nodup_ofList (l : List TokenId) : (ofList l).Nodup := nodup_foldl l [] (by simp)

theorem foldl_nodup (l : List TokenId) : ∀ (s : IdSet), (s ++ l).Nodup → l.foldl add s = s ++ l := by
  induction l with
  | nil => intro s _; simp
  | cons a l ih =>
    intro s h
    have ha : a ∉ s := by
      rw [List.nodup_append] at h
      intro hm
      exact h.2.2 a hm a (by simp) rfl
    rw [List.foldl_cons]
    have : add s a = s ++ [a] := by unfold add; rw [if_neg ha]
    rw [this, ih (s ++ [a]) (by simpa using h)]
    simp

/-- Re-inserting distinct ids gives the same set in the same order. -/
theorem ofList_nodup {l : List TokenId} (h : l.Nodup) : ofList l = l := by
  unfold ofList
  rw [foldl_nodup l [] (by simpa using h)]
  simp

theorem length_foldl (l : List TokenId) : ∀ (s : IdSet), (l.foldl add s).length ≤ s.length + l.length := by
  induction l with
  | nil => simp
  | cons a l ih =>
    intro s
    rw [List.foldl_cons]
    refine Nat.le_trans (ih _) ?_
    have : (add s a).length ≤ s.length + 1 := by
      unfold add
      split <;> simp
    simp only [List.length_cons]; omega

theorem length_ofList (l : List TokenId) : (ofList l).length ≤ l.length := by
  have := length_foldl l []
  unfold ofList
  simpa using this

end IdSet

/-! ## Boxes -/

section
variable {G B T : Type}

/-- The token table of a transaction covers the tokens of a box. -/
def Covers (ids : Option IdSet) (toks : List Token) : Prop :=
  match ids with
  | none => True
  | some s => s.length < 2 ^ 32 ∧ ∀ t ∈ toks, t.1 ∈ s

theorem getU64_ofNat {v : Nat} (h : v < 2 ^ 64) (rest : Bytes) :
    getU64 (putU64 (BitVec.ofNat 64 v) ++ rest) = some (BitVec.ofNat 64 v, rest) ∧ (BitVec.ofNat 64 v).toNat = v := by
  refine ⟨getU64_put _ _, ?_⟩
  rw [BitVec.toNat_ofNat]; omega

theorem amount_rt {v : Nat} (h1 : 1 ≤ v) (h2 : v ≤ 2 ^ 63 - 1) (rest : Bytes) {β : Type} (f : Nat → Parser β) :
    (getU64 >>= fun amount => Parser.ofOption (TokenAmount.tryFromU64 amount.toNat) >>= f)
      (putU64 (BitVec.ofNat 64 v) ++ rest) = f v rest := by
  obtain ⟨e1, e2⟩ := getU64_ofNat (v := v) (by omega) rest
  rw [Parser.bind_some e1, e2]
  have : TokenAmount.tryFromU64 v = some v := by
    unfold TokenAmount.tryFromU64 TokenAmount.minRaw TokenAmount.maxRaw
    rw [if_pos ⟨h1, h2⟩]
  rw [this]
  rfl

theorem token_rt (ids : Option IdSet) (t : Token) (hg : GoodToken t) (hc : Covers ids [t]) :
    ∃ bs, serToken ids t = .ok bs ∧ ∀ rest, getToken ids (bs ++ rest) = some (t, rest) := by
  obtain ⟨id, a⟩ := t
  obtain ⟨h32, h1, h2⟩ := hg
  cases ids with
  | none =>
    refine ⟨id ++ putU64 (BitVec.ofNat 64 a), rfl, fun rest => ?_⟩
    unfold getToken getTokenId
    simp only [List.append_assoc]
    rw [Parser.bind_some (readExact_append' _ _ h32), amount_rt h1 h2]
    rfl
  | some s =>
    obtain ⟨hlen, hm⟩ := hc
    obtain ⟨i, e1, e2, e3⟩ := IdSet.indexOf_some s id (hm (id, a) (by simp))
    refine ⟨putU32 (BitVec.ofNat 32 i) ++ putU64 (BitVec.ofNat 64 a), ?_, fun rest => ?_⟩
    · unfold serToken
      simp only [e1, putCount32_ok (Nat.lt_trans e3 hlen)]
      rfl
    · unfold getToken getTokenId
      simp only [List.append_assoc]
      have : (getU32 >>= fun j => Parser.ofOption s[j.toNat]?)
          (putU32 (BitVec.ofNat 32 i) ++ (putU64 (BitVec.ofNat 64 a) ++ rest)) =
          some (id, putU64 (BitVec.ofNat 64 a) ++ rest) := by
        rw [Parser.bind_some (getU32_put _ _), toNat_ofNat32 (Nat.lt_trans e3 hlen), e2]
        rfl
      rw [Parser.bind_some this, amount_rt h1 h2]
      rfl

theorem tokens_rt (ids : Option IdSet) (l : List Token) (hg : ∀ t ∈ l, GoodToken t) (hc : Covers ids l) :
    ∃ bs, serMany (serToken ids) l = .ok bs ∧
      ∀ rest, replicateP l.length (getToken ids) (bs ++ rest) = some (l, rest) := by
  refine serMany_rt (P := fun t => GoodToken t ∧ Covers ids [t]) (fun t ht => token_rt ids t ht.1 ht.2) l
    (fun t ht => ⟨hg t ht, ?_⟩)
  cases ids with
  | none => trivial
  | some s => exact ⟨hc.1, by intro u hu; simp only [List.mem_singleton] at hu; subst hu; exact hc.2 _ ht⟩

theorem boxValue_rt {v : Nat} (h : 10800 ≤ v ∧ v ≤ 2 ^ 63 - 1) (rest : Bytes) :
    BoxValue.parse (BoxValue.ser v ++ rest) = some (v, rest) := by
  unfold BoxValue.parse BoxValue.ser
  obtain ⟨e1, e2⟩ := getU64_ofNat (v := v) (by omega) rest
  rw [Parser.bind_some e1, e2]
  have : BoxValue.tryFromU64 v = some v := by
    unfold BoxValue.tryFromU64 BoxValue.withinBounds BoxValue.minRaw BoxValue.maxRaw BoxValue.minValuePerBoxByte
      BoxValue.minBoxSizeBytes
    rw [if_pos]
    simp only [ge_iff_le, Bool.and_eq_true, decide_eq_true_eq]
    omega
  rw [this]
  rfl

theorem goodTokens_list {tk : Option (List Token)} (h : GoodTokens tk) :
    (tk.getD []).length ≤ 122 ∧ (∀ t ∈ tk.getD [], GoodToken t) ∧ boxTokensOf (tk.getD []) = some tk := by
  cases tk with
  | none => exact ⟨by simp, by simp, rfl⟩
  | some l =>
    obtain ⟨h1, h2, h3⟩ := h
    refine ⟨h2, h3, ?_⟩
    unfold boxTokensOf
    cases l with
    | nil => simp at h1
    | cons a l => simp only [Option.getD_some, List.isEmpty_cons]; rw [if_neg (by simp), if_pos (show _ ≤ maxTokensCount from h2)]

theorem BoxCand.rtWith [DecidableEq G] (E : Sers G B T) {bwf : B → Prop} {twf : T → Prop} (h : GoodSers E bwf twf)
    (ids : Option IdSet) (c : BoxCand G B T) (hc : GoodCand E.utf8 bwf twf c) (hi : Covers ids (c.tokens.getD [])) :
    ∃ bs, c.serWith E ids = .ok bs ∧ ∀ rest, parseBoxWith E ids (bs ++ rest) = some (c, rest) := by
  obtain ⟨t122, tgood, tof⟩ := goodTokens_list hc.tokens
  obtain ⟨bt, et, pt⟩ := h.tree c.tree hc.tree
  obtain ⟨bk, ek, pk⟩ := tokens_rt ids (c.tokens.getD []) tgood hi
  obtain ⟨br, er, pr⟩ := Regs.rt E h c.regs hc.regs
  refine ⟨_, by unfold BoxCand.serWith serBoxWith; rw [et]; simp only [Outcome.bind_ok, putCount8_ok (n := (c.tokens.getD []).length) (by omega), ek, er]; rfl, fun rest => ?_⟩
  unfold parseBoxWith
  simp only [List.append_assoc]
  rw [Parser.bind_some (boxValue_rt hc.value _), Parser.bind_some (pt _), Parser.bind_some (getU32_put _ _),
    Parser.bind_some (getU8_put _ _), toNat_ofNat8 (by omega), Parser.bind_some (pk _), tof]
  rw [show ∀ (x : Option (List Token)) (f : Option (List Token) → Parser (BoxCand G B T)),
    (Parser.ofOption (some x) >>= f) = f x from fun _ _ => rfl]
  rw [Parser.bind_some (pr _)]
  rfl

theorem EBox.ser_eq [DecidableEq G] (E : Sers G B T) (b : EBox G B T) :
    b.ser E = (b.toCand.ser E >>= fun body => .ok (body ++ b.txId ++ putU16 b.index)) := by
  unfold EBox.ser BoxCand.ser BoxCand.serWith EBox.toCand
  cases E.tc.ser b.tree <;> rfl

theorem EBox.rt [DecidableEq G] (E : Sers G B T) {bwf : B → Prop} {twf : T → Prop} (h : GoodSers E bwf twf) :
    Rto (GoodBox E bwf twf) (EBox.ser E) (EBox.parse E) := by
  intro b hb
  obtain ⟨bs, e, hp⟩ := BoxCand.rtWith E h none b.toCand hb.cand trivial
  refine ⟨bs ++ b.txId ++ putU16 b.index, ?_, fun rest => ?_⟩
  · rw [EBox.ser_eq]
    unfold BoxCand.ser
    rw [e]
    rfl
  · unfold EBox.parse
    simp only [List.append_assoc]
    rw [Parser.bind_some (hp _), Parser.bind_some (readExact_append' _ _ hb.txId), Parser.bind_some (getU16_put _ _)]
    have : EBox.ofCand E b.toCand b.txId b.index = .ok b := by
      have hid := hb.id
      unfold EBox.ofCand
      unfold EBox.calcId at hid ⊢
      obtain ⟨x, h1, h2⟩ := Outcome.bind_eq_ok.1 hid
      simp only [EBox.ser_eq] at h1 ⊢
      simp only [EBox.toCand] at h1 ⊢
      simp only [h1, Outcome.bind_ok, Outcome.pure_eq]
      simp only [Outcome.pure_eq, Outcome.ok.injEq] at h2
      rw [h2]
    rw [this]
    rfl

theorem parseBoxWith_nonExp (E : Sers G B T) (hb : NonExp E.bc.parse) (ht : NonExp E.tc.parse) (ids : Option IdSet) :
    NonExp (parseBoxWith E ids) := by
  have h1 : NonExp BoxValue.parse := by unfold BoxValue.parse; nonexp
  have h2 : NonExp (getTokenId ids) := by
    cases ids <;> unfold getTokenId <;> nonexp
  have h3 : NonExp (getToken ids) := by unfold getToken; nonexp
  have h4 := Regs.nonExp_parse E hb
  unfold parseBoxWith
  nonexp

theorem EBox.nonExp_parse [DecidableEq G] (E : Sers G B T) (hb : NonExp E.bc.parse) (ht : NonExp E.tc.parse) :
    NonExp (EBox.parse E) := by
  have := parseBoxWith_nonExp E hb ht none
  unfold EBox.parse
  nonexp

end
end Verif
