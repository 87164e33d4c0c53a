import Verif.Proofs.ExprEq
import Verif.Proofs.ExprTpe
import Verif.Proofs.Box

set_option linter.unusedVariables false
set_option linter.unusedSimpArgs false

/-! Writing an expression and reading it back. -/

namespace Verif
open Spec Expr
variable {G B T : Type} [DecidableEq G]

/-- Round trip of one expression through `parse_with_tag`. -/
def RtE (E : Sers G B T) (R : Reader G B) (e : Expr G B) (st : TStore) : Prop :=
  ∃ tag body, ser E e none = .ok (tag :: body, none) ∧ (tag = Kind.bools.code → isBools e = true) ∧
    ∀ rest, parseWith E R (st, tag) (body ++ rest) = some ((mapPh (phOf R) e, after e st), rest)

/-- Round trip of a list of expressions. -/
def RtEs (E : Sers G B T) (R : Reader G B) (l : List (Expr G B)) (st : TStore) : Prop :=
  ∃ bs, serAll E l none = .ok (bs, none) ∧
    ∀ rest, parseN (parse E R) l.length st (bs ++ rest) = some ((mapPhs (phOf R) l, afterAll l st), rest)

theorem RtE.parse {E : Sers G B T} {R : Reader G B} {e : Expr G B} {st : TStore} (h : RtE E R e st) :
    ∃ bs, ser E e none = .ok (bs, none) ∧
      ∀ rest, Expr.parse E R st (bs ++ rest) = some ((mapPh (phOf R) e, after e st), rest) := by
  obtain ⟨tag, body, h1, _, h3⟩ := h
  exact ⟨_, h1, fun rest => h3 rest⟩

theorem RtE.kind {E : Sers G B T} (hb : NonExp E.bc.parse) {R : Reader G B} {e : Expr G B} {st : TStore} (k : Kind)
    (body : Bytes) (h1 : ser E e none = .ok (k.code :: body, none)) (h2 : k ≠ .bools ∨ isBools e = true)
    (h3 : ∀ rest, parseKind E R (parseWith E R) (Expr.parse E R) st k (body ++ rest) =
      some ((mapPh (phOf R) e, after e st), rest)) : RtE E R e st := by
  refine ⟨_, _, h1, fun h => ?_, fun rest => ?_⟩
  · rcases h2 with h2 | h2
    · exact absurd (Kind.code_injective h) h2
    · exact h2
  · rw [parseWith_eq E hb]
    unfold parseTag
    rw [if_neg (Kind.code_gt k)]
    dsimp only
    rw [Kind.ofCode_code]
    exact h3 rest

theorem putType_rt {utf8 : Bytes → Bool} {t : SType} (h : GoodType utf8 t) :
    ∃ bs, putType t = .ok bs ∧ ∀ rest, SType.parse utf8 (bs ++ rest) = some (t, rest) := by
  obtain ⟨bs, h1, h2⟩ := SType.roundTrip utf8 t h.1 h.2
  exact ⟨bs, by unfold putType; rw [h1], h2⟩

theorem putArgs_rt {utf8 : Bytes → Bool} : ∀ (l : List (BitVec 32 × SType)), (∀ a ∈ l, GoodType utf8 a.2) →
    ∃ bs, putArgs l = .ok bs ∧ ∀ rest, replicateP l.length (parseArg utf8) (bs ++ rest) = some (l, rest)
  | [], _ => ⟨[], rfl, fun _ => rfl⟩
  | a :: l, h => by
    obtain ⟨b1, e1, p1⟩ := putType_rt (h a (by simp))
    obtain ⟨b2, e2, p2⟩ := putArgs_rt l (fun x hx => h x (by simp [hx]))
    refine ⟨putU32 a.1 ++ b1 ++ b2, by rw [putArgs, e1, e2]; rfl, fun rest => ?_⟩
    have h1 : parseArg utf8 (putU32 a.1 ++ (b1 ++ (b2 ++ rest))) = some (a, b2 ++ rest) := by
      unfold parseArg
      rw [Parser.bind_some (getU32_put _ _), Parser.bind_some (p1 _)]
      rfl
    simp only [List.length_cons, replicateP, List.append_assoc]
    rw [Parser.bind_some h1, Parser.bind_some (p2 _)]
    rfl

omit [DecidableEq G] in
theorem boolConst?_some {e : Expr G B} {v : Literal G B} (h : boolConst? e = some v) : e = .const ⟨.bool, v⟩ := by
  cases e with
  | const c =>
    obtain ⟨t, v'⟩ := c
    cases t <;> simp [boolConst?] at h
    rw [h]
  | _ => simp [boolConst?] at h

omit [DecidableEq G] in
theorem boolOf_good {utf8 : Bytes → Bool} {bwf : B → Prop} {v : Literal G B}
    (h : GoodConst utf8 bwf (⟨.bool, v⟩ : Constant G B)) : ∃ b, v = .bool b := by
  obtain ⟨_, _, h⟩ := h
  cases v <;> simp [WellTyped] at h ⊢

theorem serOpt_rt {E : Sers G B T} {R : Reader G B} : ∀ (d : List (Expr G B)) (st : TStore), d.length ≤ 1 → RtEs E R d st →
    ∃ bs, serOpt E d none = .ok (bs, none) ∧
      ∀ rest, parseOpt (Expr.parse E R) st (bs ++ rest) = some ((mapPhs (phOf R) d, afterAll d st), rest)
  | [], st, _, _ => ⟨putU8 0, by rw [serOpt], fun rest => rfl⟩
  | [e], st, _, h => by
    obtain ⟨bs, h1, h2⟩ := h
    rw [serAll] at h1
    obtain ⟨a, ha, h1⟩ := Outcome.bind_eq_ok.1 h1
    rw [serAll, Outcome.bind_ok] at h1
    obtain ⟨ab, aw⟩ := a
    simp only [List.append_nil, Outcome.pure_eq, Outcome.ok.injEq, Prod.mk.injEq] at h1
    obtain ⟨rfl, rfl⟩ := h1
    refine ⟨putU8 1 ++ ab, by rw [serOpt, ha]; rfl, fun rest => ?_⟩
    have h2 := h2 rest
    simp only [List.length_cons, List.length_nil, Nat.zero_add, parseN] at h2
    obtain ⟨x, s, g1, g2⟩ := Parser.bind_eq_some.1 h2
    obtain ⟨y, s', g3, g4⟩ := Parser.bind_eq_some.1 g2
    simp only [Parser.pure_run, Option.some.injEq, Prod.mk.injEq] at g3 g4
    obtain ⟨⟨g4a, g4b⟩, g4c⟩ := g4
    obtain ⟨g3a, g3b⟩ := g3
    unfold parseOpt
    rw [List.append_assoc, Parser.bind_some (getU8_put _ _), if_pos (by decide), Parser.bind_some g1]
    rw [← g4a, ← g4b, ← g4c, ← g3a, ← g3b]
    rfl
  | _ :: _ :: _, _, h, _ => by simp at h

theorem expr_rt (E : Sers G B T) {bwf : B → Prop} (hbox : BoxRoundTrips E.bc bwf) (hb : NonExp E.bc.parse)
    (R : Reader G B) (e : Expr G B) : ∀ st, Good E.utf8 bwf R e st → RtE E R e st := by
  refine Expr.rec
    (motive_1 := fun e => ∀ st, Good E.utf8 bwf R e st → RtE E R e st)
    (motive_2 := fun l => ∀ st, GoodAll E.utf8 bwf R l st → RtEs E R l st) ?_ ?_ ?_ ?_ ?_ ?_ ?_ ?_ ?_ ?_ ?_
    ?_ ?_ ?_ ?_ ?_ ?_ ?_ ?_ ?_ ?_ ?_ ?_ ?_ ?_ e
  case refine_1 =>
    intro c st h
    rw [Good] at h
    obtain ⟨bs, e1, hp⟩ := C14_roundtrip E.utf8 E.pc E.bc bwf hbox c h.1 h.2.1 h.2.2
    have hne : bs ≠ [] := by
      rintro rfl
      have := hp []
      cases this
    obtain ⟨tag, body, rfl⟩ := List.exists_cons_of_ne_nil hne
    have hle : tag.toNat ≤ 112 := by
      have h1 := hp []
      unfold Constant.parse at h1
      obtain ⟨code, s', g1, g2⟩ := Parser.bind_eq_some.1 h1
      unfold Constant.parseCode at g2
      obtain ⟨t, s'', g4, _⟩ := Parser.bind_eq_some.1 g2
      cases g1
      exact RItem.parseCode_le g4
    refine ⟨tag, body, by rw [ser, e1]; rfl, fun ht => ?_, fun rest => ?_⟩
    · subst ht
      exact absurd hle (by decide)
    · rw [parseWith_eq E hb]
      unfold parseTag
      rw [if_pos hle]
      have := hp rest
      unfold Constant.parse at this
      have h2 : Constant.parseCode E.utf8 E.pc E.bc tag (body ++ rest) = some (c, rest) := this
      rw [Parser.bind_some h2]
      rfl
  case refine_2 =>
    intro id t st h
    rw [Good] at h
    obtain ⟨c, h1, h2⟩ := h
    refine RtE.kind hb .placeholder _ (by rw [ser]) (Or.inl (by simp)) (fun rest => ?_)
    rw [parseKind, Parser.bind_some (getU32_put _ _), h1]
    rw [mapPh, phOf, h1, after]
    dsimp only
    cases R.subst
    · rw [h2]; rfl
    · rfl
  case refine_3 =>
    intro id t st h
    rw [Good] at h
    refine RtE.kind hb .valUse _ (by rw [ser]) (Or.inl (by simp)) (fun rest => ?_)
    rw [parseKind, Parser.bind_some (getU32_put _ _), h]
    rfl
  case refine_4 =>
    intro l st h
    rw [Good] at h
    refine RtE.kind hb .bools _ (by rw [ser]) (Or.inr rfl) (fun rest => ?_)
    rw [parseKind, List.append_assoc, Parser.bind_some (getU16_put _ _), toNat_ofNat16 h,
      Parser.bind_some (getBits_put _ _)]
    rfl
  case refine_5 =>
    intro o args ih st h
    rw [Good] at h
    obtain ⟨h1, h2, h3⟩ := h
    obtain ⟨bs, e1, p1⟩ := ih st h3
    refine RtE.kind hb (.simple o) bs (by rw [ser, e1]; rfl) (Or.inl (by simp)) (fun rest => ?_)
    rw [parseKind, ← h1, Parser.bind_some (p1 _), tpes_mapPhs h3, if_pos h2, mapPh, after]
    rfl
  case refine_6 =>
    intro k l r ihl ihr st h
    rw [Good] at h
    obtain ⟨h0, h1, h2⟩ := h
    by_cases hc : boolConst? l ≠ none ∧ boolConst? r ≠ none
    · obtain ⟨hl, hr⟩ := hc
      obtain ⟨x, hx⟩ := Option.ne_none_iff_exists'.1 hl
      obtain ⟨y, hy⟩ := Option.ne_none_iff_exists'.1 hr
      have el := boolConst?_some hx
      have er := boolConst?_some hy
      subst el er
      rw [Good] at h1 h2
      obtain ⟨bx, rfl⟩ := boolOf_good h1
      obtain ⟨bz, rfl⟩ := boolOf_good h2
      refine RtE.kind hb (.bin k) (Kind.bools.code :: putBits [bx, bz]) (by rw [ser, hx, hy]; rfl) (Or.inl (by simp))
        (fun rest => ?_)
      have hbits : getBits 2 (putBits [bx, bz] ++ rest) = some ([bx, bz], rest) := getBits_put [bx, bz] rest
      rw [parseKind, List.cons_append, Parser.bind_some (getU8_cons _ _), if_pos rfl, Parser.bind_some hbits]
      rfl
    · obtain ⟨tag, body, e1, ht, p1⟩ := ihl st h1
      obtain ⟨bs, e2, p2⟩ := RtE.parse (ihr _ h2)
      refine RtE.kind hb (.bin k) (tag :: body ++ bs) ?_ (Or.inl (by simp)) (fun rest => ?_)
      · rw [ser]
        split
        · rename_i g1 g2
          exact absurd ⟨by rw [g1]; simp, by rw [g2]; simp⟩ hc
        · rw [e1, Outcome.bind_ok, e2]
          rfl
      · rw [parseKind]
        simp only [List.cons_append, List.append_assoc]
        rw [Parser.bind_some (getU8_cons _ _), if_neg (fun hh => by rw [ht hh] at h0; cases h0), Parser.bind_some (p1 _)]
        dsimp only
        rw [Parser.bind_some (p2 _), mapPh, after]
        rfl
  case refine_7 =>
    intro u e t ih st h
    rw [Good] at h
    obtain ⟨b1, e1, p1⟩ := RtE.parse (ih st h.2)
    obtain ⟨b2, e2, p2⟩ := putType_rt h.1
    refine RtE.kind hb (.cast u) (b1 ++ b2) (by rw [ser, e1, e2]; rfl) (Or.inl (by simp)) (fun rest => ?_)
    rw [parseKind, List.append_assoc, Parser.bind_some (p1 _), Parser.bind_some (p2 _), mapPh, after]
    rfl
  case refine_8 =>
    intro e r t ih st h
    rw [Good] at h
    obtain ⟨b1, e1, p1⟩ := RtE.parse (ih st h.2.2)
    obtain ⟨b2, e2, p2⟩ := putType_rt h.1
    refine RtE.kind hb .extractReg (b1 ++ putI8 r ++ b2) (by rw [ser, e1, e2]; rfl) (Or.inl (by simp)) (fun rest => ?_)
    rw [parseKind]
    simp only [List.append_assoc]
    rw [Parser.bind_some (p1 _), Parser.bind_some (show getI8 (putI8 r ++ (b2 ++ rest)) = some (r, b2 ++ rest) from rfl),
      Parser.bind_some (p2 _)]
    dsimp only
    rw [(tpe_after_mapPh _ _ R e st h.2.2).1, if_pos h.2.1, mapPh, after]
    rfl
  case refine_9 =>
    intro e i ih st h
    rw [Good] at h
    obtain ⟨b1, e1, p1⟩ := RtE.parse (ih st h.2)
    refine RtE.kind hb .selectField (b1 ++ putU8 i) (by rw [ser, e1]; rfl) (Or.inl (by simp)) (fun rest => ?_)
    rw [parseKind]
    simp only [List.append_assoc]
    rw [Parser.bind_some (p1 _), Parser.bind_some (getU8_put _ _)]
    dsimp only
    rw [(tpe_after_mapPh _ _ R e st h.2).1, if_pos h.1, mapPh, after]
    rfl
  case refine_10 =>
    intro i t st h
    rw [Good] at h
    obtain ⟨b2, e2, p2⟩ := putType_rt h
    refine RtE.kind hb .getVar (putU8 i ++ b2) (by rw [ser, e2]; rfl) (Or.inl (by simp)) (fun rest => ?_)
    rw [parseKind, List.append_assoc, Parser.bind_some (getU8_put _ _), Parser.bind_some (p2 _)]
    rfl
  case refine_11 =>
    intro t i st h
    rw [Good] at h
    obtain ⟨b2, e2, p2⟩ := putType_rt h
    refine RtE.kind hb .deserCtx (b2 ++ putU8 i) (by rw [ser, e2]; rfl) (Or.inl (by simp)) (fun rest => ?_)
    rw [parseKind, List.append_assoc, Parser.bind_some (p2 _), Parser.bind_some (getU8_put _ _)]
    rfl
  case refine_12 =>
    intro r t d ih st h
    rw [Good] at h
    obtain ⟨b1, e1, p1⟩ := serOpt_rt d st h.2.1 (ih st h.2.2)
    obtain ⟨b2, e2, p2⟩ := putType_rt h.1
    refine RtE.kind hb .deserReg (putU8 r ++ b2 ++ b1) (by rw [ser, e2, Outcome.bind_ok, e1]; rfl) (Or.inl (by simp))
      (fun rest => ?_)
    rw [parseKind]
    simp only [List.append_assoc]
    rw [Parser.bind_some (getU8_put _ _), Parser.bind_some (p2 _), Parser.bind_some (p1 _), mapPh, after]
    rfl
  case refine_13 =>
    intro e i d ihe ihi ihd st h
    rw [Good] at h
    obtain ⟨h1, h2, h3, h4, h5⟩ := h
    obtain ⟨b1, e1, p1⟩ := RtE.parse (ihe st h3)
    obtain ⟨b2, e2, p2⟩ := RtE.parse (ihi _ h4)
    obtain ⟨b3, e3, p3⟩ := serOpt_rt d _ h2 (ihd _ h5)
    refine RtE.kind hb .byIndex (b1 ++ b2 ++ b3) ?_ (Or.inl (by simp)) (fun rest => ?_)
    · rw [ser, e1, Outcome.bind_ok, e2, Outcome.bind_ok, e3]; rfl
    · rw [parseKind]
      simp only [List.append_assoc]
      rw [Parser.bind_some (p1 _)]; dsimp only
      rw [Parser.bind_some (p2 _)]; dsimp only
      rw [Parser.bind_some (p3 _)]; dsimp only
      rw [(tpe_after_mapPh _ _ R e _ h3).1, (tpe_after_mapPh _ _ R i _ h4).1, tpes_mapPhs h5, if_pos h1, mapPh, after]
      rfl
  case refine_14 =>
    intro f g k v ihf ihg ihk ihv st h
    rw [Good] at h
    obtain ⟨h1, h2, h3, h4, h5, h6⟩ := h
    obtain ⟨b1, e1, p1⟩ := RtE.parse (ihf st h3)
    obtain ⟨b2, e2, p2⟩ := RtE.parse (ihg _ h4)
    obtain ⟨b3, e3, p3⟩ := RtE.parse (ihk _ h5)
    obtain ⟨b4, e4, p4⟩ := serOpt_rt v _ h2 (ihv _ h6)
    refine RtE.kind hb .createAvl (b1 ++ b2 ++ b3 ++ b4) ?_ (Or.inl (by simp)) (fun rest => ?_)
    · rw [ser, e1, Outcome.bind_ok, e2, Outcome.bind_ok, e3, Outcome.bind_ok, e4]; rfl
    · rw [parseKind]
      simp only [List.append_assoc]
      rw [Parser.bind_some (p1 _)]; dsimp only
      rw [Parser.bind_some (p2 _)]; dsimp only
      rw [Parser.bind_some (p3 _)]; dsimp only
      rw [Parser.bind_some (p4 _)]; dsimp only
      rw [(tpe_after_mapPh _ _ R f _ h3).1, (tpe_after_mapPh _ _ R g _ h4).1, (tpe_after_mapPh _ _ R k _ h5).1,
        tpes_mapPhs h6, if_pos h1, mapPh, after]
      rfl
  case refine_15 =>
    intro t items ih st h
    rw [Good] at h
    obtain ⟨b1, e1, p1⟩ := ih st h.2.2
    obtain ⟨b2, e2, p2⟩ := putType_rt h.1
    refine RtE.kind hb .coll (putU16 (BitVec.ofNat 16 items.length) ++ b2 ++ b1)
      (by rw [ser, e2, Outcome.bind_ok, e1]; rfl) (Or.inl (by simp)) (fun rest => ?_)
    rw [parseKind]
    simp only [List.append_assoc]
    rw [Parser.bind_some (getU16_put _ _), Parser.bind_some (p2 _), toNat_ofNat16 h.2.1, Parser.bind_some (p1 _), mapPh,
      after]
    rfl
  case refine_16 =>
    intro items ih st h
    rw [Good] at h
    obtain ⟨b1, e1, p1⟩ := ih st h.2.2
    refine RtE.kind hb .tuple (putU8 (BitVec.ofNat 8 items.length) ++ b1)
      (by rw [ser, e1]; rfl) (Or.inl (by simp)) (fun rest => ?_)
    rw [parseKind]
    simp only [List.append_assoc]
    rw [Parser.bind_some (getU8_put _ _), toNat_ofNat8 h.2.1, Parser.bind_some (p1 _)]; dsimp only
    rw [mapPhs_length, if_pos ⟨h.1, h.2.1⟩, mapPh, after]
    rfl
  case refine_17 =>
    intro u items ih st h
    rw [Good] at h
    obtain ⟨h0, h1, h2, h3⟩ := h
    obtain ⟨b1, e1, p1⟩ := ih st h3
    refine RtE.kind hb (.sigma u) (putU32 (BitVec.ofNat 32 items.length) ++ b1)
      (by rw [ser, e1]; rfl) (Or.inl (by simp)) (fun rest => ?_)
    rw [parseKind]
    simp only [List.append_assoc]
    rw [Parser.bind_some (getU32_put _ _), toNat_ofNat32 (by omega), Parser.bind_some (p1 _)]; dsimp only
    rw [mapPhs_length, tpes_mapPhs h3, if_pos ⟨h0, h1, h2⟩, mapPh, after]
    rfl
  case refine_18 =>
    intro args body ih st h
    rw [Good] at h
    obtain ⟨h0, h1, h2⟩ := h
    obtain ⟨b1, e1, p1⟩ := RtE.parse (ih _ h2)
    obtain ⟨b2, e2, p2⟩ := putArgs_rt args h1
    refine RtE.kind hb .func (putU32 (BitVec.ofNat 32 args.length) ++ b2 ++ b1)
      (by rw [ser, e2, Outcome.bind_ok, e1]; rfl) (Or.inl (by simp)) (fun rest => ?_)
    rw [parseKind]
    simp only [List.append_assoc]
    rw [Parser.bind_some (getU32_put _ _), toNat_ofNat32 h0, Parser.bind_some (p2 _), Parser.bind_some (p1 _), mapPh, after]
    rfl
  case refine_19 =>
    intro f args ihf iha st h
    rw [Good] at h
    obtain ⟨h0, h1, h2, h3⟩ := h
    obtain ⟨b1, e1, p1⟩ := RtE.parse (ihf _ h2)
    obtain ⟨b2, e2, p2⟩ := iha _ h3
    refine RtE.kind hb .apply (b1 ++ putU32 (BitVec.ofNat 32 args.length) ++ b2)
      (by rw [ser, e1, Outcome.bind_ok, e2]; rfl) (Or.inl (by simp)) (fun rest => ?_)
    rw [parseKind]
    simp only [List.append_assoc]
    rw [Parser.bind_some (p1 _)]; dsimp only
    rw [Parser.bind_some (getU32_put _ _), toNat_ofNat32 h1, Parser.bind_some (p2 _)]; dsimp only
    rw [(tpe_after_mapPh _ _ R f _ h2).1, tpes_mapPhs h3, if_pos h0, mapPh, after]
    rfl
  case refine_20 =>
    intro items r ihi ihr st h
    rw [Good] at h
    obtain ⟨h0, h1, h2⟩ := h
    obtain ⟨b1, e1, p1⟩ := ihi _ h1
    obtain ⟨b2, e2, p2⟩ := RtE.parse (ihr _ h2)
    refine RtE.kind hb .block (putU32 (BitVec.ofNat 32 items.length) ++ b1 ++ b2)
      (by rw [ser, e1, Outcome.bind_ok, e2]; rfl) (Or.inl (by simp)) (fun rest => ?_)
    rw [parseKind]
    simp only [List.append_assoc]
    rw [Parser.bind_some (getU32_put _ _), toNat_ofNat32 h0, Parser.bind_some (p1 _)]; dsimp only
    rw [Parser.bind_some (p2 _), mapPh, after]
    rfl
  case refine_21 =>
    intro id rhs ih st h
    rw [Good] at h
    obtain ⟨b1, e1, p1⟩ := RtE.parse (ih _ h)
    refine RtE.kind hb .valDef (putU32 id ++ b1) (by rw [ser, e1]; rfl) (Or.inl (by simp)) (fun rest => ?_)
    rw [parseKind]
    simp only [List.append_assoc]
    rw [Parser.bind_some (getU32_put _ _), Parser.bind_some (p1 _)]; dsimp only
    rw [(tpe_after_mapPh _ _ R rhs _ h).1, mapPh, after]
    rfl
  case refine_22 =>
    intro ti mi sig obj args iho iha st h
    rw [Good] at h
    obtain ⟨h0, h1, h2, h3⟩ := h
    obtain ⟨b1, e1, p1⟩ := RtE.parse (iho _ h2)
    obtain ⟨b2, e2, p2⟩ := iha _ h3
    refine RtE.kind hb .method (putU8 ti ++ putU8 mi ++ b1 ++ putU32 (BitVec.ofNat 32 args.length) ++ b2)
      (by rw [ser, e1, Outcome.bind_ok, e2]; rfl) (Or.inl (by simp)) (fun rest => ?_)
    rw [parseKind]
    simp only [List.append_assoc]
    rw [Parser.bind_some (getU8_put _ _), Parser.bind_some (getU8_put _ _), Parser.bind_some (p1 _)]; dsimp only
    rw [Parser.bind_some (getU32_put _ _), toNat_ofNat32 h1, Parser.bind_some (p2 _)]; dsimp only
    rw [(tpe_after_mapPh _ _ R obj _ h2).1, tpes_mapPhs h3, h0, mapPh, after]
    rfl
  case refine_23 =>
    intro ti mi sig obj iho st h
    rw [Good] at h
    obtain ⟨h0, h2⟩ := h
    obtain ⟨b1, e1, p1⟩ := RtE.parse (iho _ h2)
    refine RtE.kind hb .property (putU8 ti ++ putU8 mi ++ b1)
      (by rw [ser, e1]; rfl) (Or.inl (by simp)) (fun rest => ?_)
    rw [parseKind]
    simp only [List.append_assoc]
    rw [Parser.bind_some (getU8_put _ _), Parser.bind_some (getU8_put _ _), Parser.bind_some (p1 _)]; dsimp only
    rw [(tpe_after_mapPh _ _ R obj _ h2).1, h0, mapPh, after]
    rfl
  case refine_24 =>
    intro st h
    exact ⟨[], by rw [serAll], fun rest => rfl⟩
  case refine_25 =>
    intro e l ihe ihl st h
    rw [GoodAll] at h
    obtain ⟨b1, e1, p1⟩ := RtE.parse (ihe st h.1)
    obtain ⟨b2, e2, p2⟩ := ihl _ h.2
    refine ⟨b1 ++ b2, by rw [serAll, e1, Outcome.bind_ok, e2]; rfl, fun rest => ?_⟩
    rw [List.append_assoc, List.length_cons, parseN, Parser.bind_some (p1 _)]
    dsimp only
    rw [Parser.bind_some (p2 _), mapPhs, afterAll]
    rfl

end Verif
