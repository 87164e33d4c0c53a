import Verif.Proofs.FixVlq
import Verif.Spec.SType
import Verif.Proofs.Post

set_option linter.unusedSimpArgs false
set_option linter.unusedVariables false

namespace Verif
namespace SType
open Spec

/-- Induction over types with membership hypotheses. -/
theorem induct {P : SType → Prop} (hvar : ∀ n, P (typeVar n)) (hany : P any) (hunit : P unit) (hbool : P bool)
    (hbyte : P byte) (hshort : P short) (hint : P int) (hlong : P long) (hbig : P bigInt) (hge : P groupElement)
    (hsp : P sigmaProp) (hbox : P box) (hav : P avlTree) (hopt : ∀ e, P e → P (option e))
    (hcoll : ∀ e, P e → P (coll e)) (htup : ∀ l, (∀ t ∈ l, P t) → P (tuple l))
    (hfun : ∀ d r p, (∀ t ∈ d, P t) → P r → P (func d r p)) (hctx : P context) (hhead : P header)
    (hpre : P preHeader) (hglob : P global) : ∀ t, P t :=
  fun t => SType.rec (motive_1 := P) (motive_2 := fun l => ∀ t ∈ l, P t) hvar hany hunit hbool hbyte hshort hint
    hlong hbig hge hsp hbox hav (fun e h => hopt e h) (fun e h => hcoll e h) (fun l h => htup l h)
    (fun d r p hd hr => hfun d r p hd hr) hctx hhead hpre hglob
    (fun c hc => by cases hc)
    (fun a l ha hl c hc => by
      rcases List.mem_cons.1 hc with rfl | h
      · exact ha
      · exact hl c h) t

theorem beqList_iff (l : List SType) (h : ∀ c ∈ l, ∀ b, beq c b = true ↔ c = b) :
    ∀ l', beqList l l' = true ↔ l = l' := by
  induction l with
  | nil => intro l'; cases l' <;> simp [beqList]
  | cons a l ih =>
    intro l'
    cases l' with
    | nil => simp [beqList]
    | cons b l' =>
      simp only [beqList, Bool.and_eq_true, List.cons.injEq]
      rw [h a (by simp), ih (fun c hc => h c (by simp [hc]))]

theorem beq_iff : ∀ a b : SType, beq a b = true ↔ a = b := by
  intro a
  induction a using induct with
  | hopt e ih => intro b; cases b <;> simp [beq, ih]
  | hcoll e ih => intro b; cases b <;> simp [beq, ih]
  | htup l ih => intro b; cases b <;> simp [beq, beqList_iff l ih]
  | hfun d r p ih ihr => intro b; cases b <;> simp [beq, beqList_iff d ih, ihr, and_assoc]
  | _ => intro b; cases b <;> simp [beq]

instance : DecidableEq SType := fun a b =>
  if h : beq a b = true then isTrue ((beq_iff a b).1 h) else isFalse (fun e => h ((beq_iff a b).2 e))

theorem wfTypes_iff (utf8 : Bytes → Bool) (l : List SType) : WfTypes utf8 l ↔ ∀ t ∈ l, WfType utf8 t := by
  induction l with
  | nil => simp [WfTypes]
  | cons a l ih => simp [WfTypes, ih]

theorem noFuncs_iff (l : List SType) : NoFuncs l ↔ ∀ t ∈ l, NoFunc t := by
  induction l with
  | nil => simp [NoFuncs]
  | cons a l ih => simp [NoFuncs, ih]

theorem primOf_code {t : SType} {p : Byte} (h : primCode t = some p) : primOf p.toNat = some t := by
  cases t <;> simp [primCode] at h <;> subst h <;> rfl

/-! ## The reader body is productive -/

theorem nonExp_onPrim {i : Nat} {k : SType → Parser SType} {e : Parser SType} (hk : ∀ t, NonExp (k t))
    (he : NonExp e) : NonExp (onPrim i k e) := by
  unfold onPrim; split
  · exact hk _
  · exact he

theorem agree_onPrim {n i : Nat} {k k' : SType → Parser SType} {e e' : Parser SType} (hk : ∀ t, AgreeLt n (k t) (k' t))
    (he : AgreeLt n e e') : AgreeLt n (onPrim i k e) (onPrim i k' e') := by
  unfold onPrim; split
  · exact hk _
  · exact he

theorem nonExp_parseVar (utf8 : Bytes → Bool) : NonExp (parseVar utf8) :=
  NonExp.bind NonExp.getU8 (fun _ => NonExp.bind (NonExp.readExact _)
    (fun _ => NonExp.ite (NonExp.pure _) NonExp.fail))

theorem nonExp_parseCode (utf8 : Bytes → Bool) {p : Parser SType} (hp : NonExp p) (c : Byte) :
    NonExp (parseCode utf8 p c) := by
  unfold parseCode
  have pu : ∀ t : SType, NonExp (pure t : Parser SType) := fun t => NonExp.pure t
  repeat' first
    | exact pu _
    | exact NonExp.fail
    | exact hp
    | exact NonExp.getU8
    | exact nonExp_parseVar utf8
    | exact NonExp.replicateP hp _
    | refine nonExp_onPrim (fun _ => ?_) ?_
    | refine NonExp.ite ?_ ?_
    | refine NonExp.bind ?_ (fun _ => ?_)

theorem agree_parseCode (utf8 : Bytes → Bool) {n : Nat} {p q : Parser SType} (hp : NonExp p) (h : AgreeLt n p q)
    (c : Byte) : AgreeLt n (parseCode utf8 p c) (parseCode utf8 q c) := by
  unfold parseCode
  repeat' first
    | exact AgreeLt.rfl
    | exact h
    | exact hp
    | exact NonExp.getU8
    | exact NonExp.replicateP hp _
    | exact AgreeLt.replicateP hp h _
    | refine agree_onPrim (fun _ => ?_) ?_
    | refine AgreeLt.ite ?_ ?_
    | refine AgreeLt.bind ?_ ?_ (fun _ => ?_)

theorem productive_parseBody (utf8 : Bytes → Bool) : Productive (parseBody utf8) where
  nonExp p hp := NonExp.bind NonExp.getU8 (fun c => nonExp_parseCode utf8 hp c)
  step p q s hp hq h := getU8_bind_agree s (fun c => agree_parseCode utf8 hp h c)

theorem parse_eq (utf8 : Bytes → Bool) : parse utf8 = parseBody utf8 (parse utf8) :=
  fixP_eq (productive_parseBody utf8)

theorem nonExp_parse (utf8 : Bytes → Bool) : NonExp (parse utf8) := fixP_nonExp (productive_parseBody utf8)

theorem parse_cons (utf8 : Bytes → Bool) (c : Byte) (s : Bytes) :
    parse utf8 (c :: s) = parseCode utf8 (parse utf8) c s :=
  congrFun (parse_eq utf8) (c :: s)

/-! ## Round trip -/

/-- The round trip of one type. -/
def Rt (utf8 : Bytes → Bool) (t : SType) : Prop :=
  ∃ bs, ser t = some bs ∧ ∀ rest, parse utf8 (bs ++ rest) = some (t, rest)

theorem rt_prim {utf8 : Bytes → Bool} {t : SType} {p : Byte} (h : primCode t = some p) : ser t = some [p] := by
  cases t <;> simp [primCode] at h <;> subst h <;> rfl

theorem concatOpt_serItems (utf8 : Bytes → Bool) : ∀ (l : List SType), (∀ t ∈ l, Rt utf8 t) →
    ∃ bs, concatOpt (serItems l) = some bs ∧
      ∀ rest, replicateP l.length (parse utf8) (bs ++ rest) = some (l, rest)
  | [], _ => ⟨[], rfl, fun rest => rfl⟩
  | t :: l, h => by
    obtain ⟨b, hb, hp⟩ := h t (by simp)
    obtain ⟨bs, hbs, hps⟩ := concatOpt_serItems utf8 l (fun x hx => h x (by simp [hx]))
    refine ⟨b ++ bs, ?_, ?_⟩
    · simp [serItems, hb, concatOpt, hbs]
    · intro rest
      rw [List.append_assoc]
      show (parse utf8 >>= fun a => replicateP l.length (parse utf8) >>= fun as => pure (a :: as)) _ = _
      rw [Parser.bind_some (hp _), Parser.bind_some (hps _)]; rfl

theorem rt_option {utf8 : Bytes → Bool} {e : SType} (h : Rt utf8 e) : Rt utf8 (option e) := by
  obtain ⟨b, hb, hp⟩ := h
  have gen : ser (option e) = some (36 :: b) → Rt utf8 (option e) := by
    intro hs
    refine ⟨_, hs, fun rest => ?_⟩
    rw [List.cons_append, parse_cons]
    show (parse utf8 >>= fun t => pure (option t)) _ = _
    rw [Parser.bind_some (hp rest)]; rfl
  have one : ∀ c, ser (option e) = some [c] → (∀ rest, parseCode utf8 (parse utf8) c rest = some (option e, rest)) →
      Rt utf8 (option e) := by
    intro c hs hc
    exact ⟨_, hs, fun rest => by rw [List.cons_append, parse_cons]; exact hc rest⟩
  cases e with
  | bool => exact one 37 rfl (fun _ => rfl)
  | byte => exact one 38 rfl (fun _ => rfl)
  | short => exact one 39 rfl (fun _ => rfl)
  | int => exact one 40 rfl (fun _ => rfl)
  | long => exact one 41 rfl (fun _ => rfl)
  | bigInt => exact one 42 rfl (fun _ => rfl)
  | groupElement => exact one 43 rfl (fun _ => rfl)
  | sigmaProp => exact one 44 rfl (fun _ => rfl)
  | coll i =>
    cases i with
    | bool => exact one 49 rfl (fun _ => rfl)
    | byte => exact one 50 rfl (fun _ => rfl)
    | short => exact one 51 rfl (fun _ => rfl)
    | int => exact one 52 rfl (fun _ => rfl)
    | long => exact one 53 rfl (fun _ => rfl)
    | bigInt => exact one 54 rfl (fun _ => rfl)
    | groupElement => exact one 55 rfl (fun _ => rfl)
    | sigmaProp => exact one 56 rfl (fun _ => rfl)
    | _ => exact gen (by rw [ser]; simp [encOption, primCode, hb])
  | _ => exact gen (by rw [ser]; simp [encOption, primCode, hb])

theorem rt_coll {utf8 : Bytes → Bool} {e : SType} (h : Rt utf8 e) : Rt utf8 (coll e) := by
  obtain ⟨b, hb, hp⟩ := h
  have gen : ser (coll e) = some (12 :: b) → Rt utf8 (coll e) := by
    intro hs
    refine ⟨_, hs, fun rest => ?_⟩
    rw [List.cons_append, parse_cons]
    show (parse utf8 >>= fun t => pure (coll t)) _ = _
    rw [Parser.bind_some (hp rest)]; rfl
  have one : ∀ c, ser (coll e) = some [c] → (∀ rest, parseCode utf8 (parse utf8) c rest = some (coll e, rest)) →
      Rt utf8 (coll e) := by
    intro c hs hc
    exact ⟨_, hs, fun rest => by rw [List.cons_append, parse_cons]; exact hc rest⟩
  cases e with
  | bool => exact one 13 rfl (fun _ => rfl)
  | byte => exact one 14 rfl (fun _ => rfl)
  | short => exact one 15 rfl (fun _ => rfl)
  | int => exact one 16 rfl (fun _ => rfl)
  | long => exact one 17 rfl (fun _ => rfl)
  | bigInt => exact one 18 rfl (fun _ => rfl)
  | groupElement => exact one 19 rfl (fun _ => rfl)
  | sigmaProp => exact one 20 rfl (fun _ => rfl)
  | coll i =>
    cases i with
    | bool => exact one 25 rfl (fun _ => rfl)
    | byte => exact one 26 rfl (fun _ => rfl)
    | short => exact one 27 rfl (fun _ => rfl)
    | int => exact one 28 rfl (fun _ => rfl)
    | long => exact one 29 rfl (fun _ => rfl)
    | bigInt => exact one 30 rfl (fun _ => rfl)
    | groupElement => exact one 31 rfl (fun _ => rfl)
    | sigmaProp => exact one 32 rfl (fun _ => rfl)
    | _ => exact gen (by rw [ser]; simp [encColl, primCode, hb])
  | _ => exact gen (by rw [ser]; simp [encColl, primCode, hb])

theorem primCode_cases {t : SType} {p : Byte} (h : primCode t = some p) :
    (t = bool ∧ p = 1) ∨ (t = byte ∧ p = 2) ∨ (t = short ∧ p = 3) ∨ (t = int ∧ p = 4) ∨ (t = long ∧ p = 5) ∨
    (t = bigInt ∧ p = 6) ∨ (t = groupElement ∧ p = 7) ∨ (t = sigmaProp ∧ p = 8) := by
  cases t <;> simp [primCode] at h <;> subst h <;> simp

theorem pair1_parse {utf8 : Bytes → Bool} {t1 t2 : SType} {p : Byte} (h : primCode t1 = some p) (b : Bytes)
    (hp : ∀ rest, parse utf8 (b ++ rest) = some (t2, rest)) (rest : Bytes) :
    parse utf8 ((60 + p) :: b ++ rest) = some (tuple [t1, t2], rest) := by
  rw [List.cons_append, parse_cons]
  rcases primCode_cases h with ⟨rfl, rfl⟩ | ⟨rfl, rfl⟩ | ⟨rfl, rfl⟩ | ⟨rfl, rfl⟩ | ⟨rfl, rfl⟩ | ⟨rfl, rfl⟩ |
    ⟨rfl, rfl⟩ | ⟨rfl, rfl⟩ <;>
  · refine Eq.trans (b := (parse utf8 >>= fun t2 => pure (tuple [_, t2])) (b ++ rest)) rfl ?_
    rw [Parser.bind_some (hp rest)]; rfl

theorem pair2_parse {utf8 : Bytes → Bool} {t1 t2 : SType} {p : Byte} (h : primCode t2 = some p) (b : Bytes)
    (hp : ∀ rest, parse utf8 (b ++ rest) = some (t1, rest)) (rest : Bytes) :
    parse utf8 ((72 + p) :: b ++ rest) = some (tuple [t1, t2], rest) := by
  rw [List.cons_append, parse_cons]
  rcases primCode_cases h with ⟨rfl, rfl⟩ | ⟨rfl, rfl⟩ | ⟨rfl, rfl⟩ | ⟨rfl, rfl⟩ | ⟨rfl, rfl⟩ | ⟨rfl, rfl⟩ |
    ⟨rfl, rfl⟩ | ⟨rfl, rfl⟩ <;>
  · refine Eq.trans (b := (parse utf8 >>= fun t1 => pure (tuple [t1, _])) (b ++ rest)) rfl ?_
    rw [Parser.bind_some (hp rest)]; rfl

theorem symm_parse {utf8 : Bytes → Bool} {t : SType} {p : Byte} (h : primCode t = some p) (rest : Bytes) :
    parse utf8 ([84 + p] ++ rest) = some (tuple [t, t], rest) := by
  rw [List.cons_append, parse_cons]
  rcases primCode_cases h with ⟨rfl, rfl⟩ | ⟨rfl, rfl⟩ | ⟨rfl, rfl⟩ | ⟨rfl, rfl⟩ | ⟨rfl, rfl⟩ | ⟨rfl, rfl⟩ |
    ⟨rfl, rfl⟩ | ⟨rfl, rfl⟩ <;> rfl

theorem rt_pair {utf8 : Bytes → Bool} {t1 t2 : SType} (h1 : Rt utf8 t1) (h2 : Rt utf8 t2) :
    Rt utf8 (tuple [t1, t2]) := by
  obtain ⟨b1, hb1, hp1⟩ := h1
  obtain ⟨b2, hb2, hp2⟩ := h2
  have e : ser (tuple [t1, t2]) = encPair t1 t2 (some b1) (some b2) := by
    rw [ser, serItems, serItems, serItems, hb1, hb2]; rfl
  unfold Rt
  rw [e]
  unfold encPair
  cases hc1 : primCode t1 with
  | some p1 =>
    cases hc2 : primCode t2 with
    | some p2 =>
      by_cases hs : p1 = p2 ∧ p1 ≠ 3
      · simp only [if_pos hs]
        obtain ⟨rfl, _⟩ := hs
        have : t1 = t2 := by
          have a := primOf_code hc1; rw [primOf_code hc2] at a; simpa using a.symm
        subst this
        exact ⟨_, rfl, fun rest => symm_parse hc1 rest⟩
      · simp only [if_neg hs]
        exact ⟨_, rfl, fun rest => pair1_parse hc1 b2 hp2 rest⟩
    | none => exact ⟨_, rfl, fun rest => pair1_parse hc1 b2 hp2 rest⟩
  | none =>
    cases hc2 : primCode t2 with
    | some p2 => exact ⟨_, rfl, fun rest => pair2_parse hc2 b1 hp1 rest⟩
    | none =>
      refine ⟨_, rfl, fun rest => ?_⟩
      rw [List.cons_append, parse_cons, List.append_assoc]
      show (parse utf8 >>= fun t1 => parse utf8 >>= fun t2 => pure (tuple [t1, t2])) _ = _
      rw [Parser.bind_some (hp1 _), Parser.bind_some (hp2 _)]; rfl

theorem rt_tuple {utf8 : Bytes → Bool} (l : List SType) (h2 : 2 ≤ l.length) (h255 : l.length ≤ 255)
    (h : ∀ t ∈ l, Rt utf8 t) : Rt utf8 (tuple l) := by
  match l, h2, h255, h with
  | [t1, t2], _, _, h => exact rt_pair (h t1 (by simp)) (h t2 (by simp))
  | [t1, t2, t3], _, _, h =>
    obtain ⟨b1, hb1, hp1⟩ := h t1 (by simp)
    obtain ⟨b2, hb2, hp2⟩ := h t2 (by simp)
    obtain ⟨b3, hb3, hp3⟩ := h t3 (by simp)
    refine ⟨72 :: (b1 ++ (b2 ++ (b3 ++ []))), ?_, fun rest => ?_⟩
    · simp [ser, serItems, hb1, hb2, hb3, encTuple, concatOpt]
    · simp only [List.cons_append, List.append_assoc]
      rw [parse_cons]
      show (parse utf8 >>= fun t1 => parse utf8 >>= fun t2 => parse utf8 >>= fun t3 =>
        pure (tuple [t1, t2, t3])) _ = _
      rw [Parser.bind_some (hp1 _), Parser.bind_some (hp2 _), Parser.bind_some (hp3 _)]; rfl
  | [t1, t2, t3, t4], _, _, h =>
    obtain ⟨b1, hb1, hp1⟩ := h t1 (by simp)
    obtain ⟨b2, hb2, hp2⟩ := h t2 (by simp)
    obtain ⟨b3, hb3, hp3⟩ := h t3 (by simp)
    obtain ⟨b4, hb4, hp4⟩ := h t4 (by simp)
    refine ⟨84 :: (b1 ++ (b2 ++ (b3 ++ (b4 ++ [])))), ?_, fun rest => ?_⟩
    · simp [ser, serItems, hb1, hb2, hb3, hb4, encTuple, concatOpt]
    · simp only [List.cons_append, List.append_assoc]
      rw [parse_cons]
      show (parse utf8 >>= fun t1 => parse utf8 >>= fun t2 => parse utf8 >>= fun t3 => parse utf8 >>= fun t4 =>
        pure (tuple [t1, t2, t3, t4])) _ = _
      rw [Parser.bind_some (hp1 _), Parser.bind_some (hp2 _), Parser.bind_some (hp3 _), Parser.bind_some (hp4 _)]; rfl
  | t1 :: t2 :: t3 :: t4 :: t5 :: l, h2, h255, h =>
    generalize hL : t1 :: t2 :: t3 :: t4 :: t5 :: l = L at *
    obtain ⟨bs, hbs, hp⟩ := concatOpt_serItems utf8 L h
    have e : ser (tuple L) = some (96 :: BitVec.ofNat 8 L.length :: bs) := by
      rw [ser]
      have : encTuple L (serItems L) = (concatOpt (serItems L)).map (96 :: BitVec.ofNat 8 L.length :: ·) := by
        subst hL; rfl
      rw [this, hbs]; rfl
    refine ⟨_, e, fun rest => ?_⟩
    rw [List.cons_append, parse_cons]
    show (getU8 >>= fun n => replicateP n.toNat (parse utf8) >>= fun items =>
      if 2 ≤ items.length ∧ items.length ≤ 255 then pure (tuple items) else Parser.fail) _ = _
    rw [List.cons_append, Parser.bind_some (getU8_cons _ _)]
    have en : (BitVec.ofNat 8 L.length).toNat = L.length := by simp only [BitVec.toNat_ofNat]; omega
    rw [en, Parser.bind_some (hp rest), if_pos ⟨h2, h255⟩]; rfl
  | [], h2, _, _ => exact absurd h2 (by simp)
  | [_], h2, _, _ => exact absurd h2 (by simp)

theorem roundTrip (utf8 : Bytes → Bool) : ∀ t, WfType utf8 t → NoFunc t → Rt utf8 t := by
  intro t
  have one : ∀ (t : SType) c, ser t = some [c] →
      (∀ rest, parseCode utf8 (parse utf8) c rest = some (t, rest)) → Rt utf8 t := by
    intro t c hs hc
    exact ⟨_, hs, fun rest => by rw [List.cons_append, parse_cons]; exact hc rest⟩
  induction t using induct with
  | hvar n =>
    intro hw _
    obtain ⟨h1, h254, hu⟩ := hw
    refine ⟨_, rfl, fun rest => ?_⟩
    rw [List.cons_append, parse_cons]
    show (getU8 >>= fun k => readExact k.toNat >>= fun bytes =>
      if utf8 bytes = true ∧ 1 ≤ bytes.length ∧ bytes.length ≤ 254 then pure (typeVar bytes) else Parser.fail) _ = _
    rw [List.cons_append, Parser.bind_some (getU8_cons _ _)]
    have en : (BitVec.ofNat 8 n.length).toNat = n.length := by simp only [BitVec.toNat_ofNat]; omega
    rw [en, Parser.bind_some (readExact_append n rest), if_pos ⟨hu, h1, h254⟩]; rfl
  | hany => exact fun _ _ => one _ 97 rfl (fun _ => rfl)
  | hunit => exact fun _ _ => one _ 98 rfl (fun _ => rfl)
  | hbool => exact fun _ _ => one _ 1 rfl (fun _ => rfl)
  | hbyte => exact fun _ _ => one _ 2 rfl (fun _ => rfl)
  | hshort => exact fun _ _ => one _ 3 rfl (fun _ => rfl)
  | hint => exact fun _ _ => one _ 4 rfl (fun _ => rfl)
  | hlong => exact fun _ _ => one _ 5 rfl (fun _ => rfl)
  | hbig => exact fun _ _ => one _ 6 rfl (fun _ => rfl)
  | hge => exact fun _ _ => one _ 7 rfl (fun _ => rfl)
  | hsp => exact fun _ _ => one _ 8 rfl (fun _ => rfl)
  | hbox => exact fun _ _ => one _ 99 rfl (fun _ => rfl)
  | hav => exact fun _ _ => one _ 100 rfl (fun _ => rfl)
  | hopt e ih => exact fun hw hf => rt_option (ih hw hf)
  | hcoll e ih => exact fun hw hf => rt_coll (ih hw hf)
  | htup l ih =>
    intro hw hf
    have hwl := (wfTypes_iff utf8 l).1 hw.2.2
    have hfl := (noFuncs_iff l).1 hf
    exact rt_tuple l hw.1 hw.2.1 (fun t ht => ih t ht (hwl t ht) (hfl t ht))
  | hfun d r p ihd ihr => exact fun _ hf => hf.elim
  | hctx => exact fun _ _ => one _ 101 rfl (fun _ => rfl)
  | hhead => exact fun _ _ => one _ 104 rfl (fun _ => rfl)
  | hpre => exact fun _ _ => one _ 105 rfl (fun _ => rfl)
  | hglob => exact fun _ _ => one _ 106 rfl (fun _ => rfl)

/-! ## A type containing a function type is refused -/

theorem concatOpt_none {l : List (Option Bytes)} (h : none ∈ l) : concatOpt l = none := by
  induction l with
  | nil => cases h
  | cons o l ih =>
    cases o with
    | none => rfl
    | some b =>
      rcases List.mem_cons.1 h with h | h
      · cases h
      · simp [concatOpt, ih h]

theorem serItems_eq (l : List SType) : serItems l = l.map ser := by
  induction l with
  | nil => rfl
  | cons a l ih => simp [serItems, ih]

theorem primCode_noFunc {t : SType} {p : Byte} (h : primCode t = some p) : NoFunc t := by
  cases t <;> simp [primCode] at h <;> simp [NoFunc]

theorem ser_func : ∀ t, ¬ NoFunc t → ser t = none := by
  intro t
  induction t using induct with
  | hopt e ih =>
    intro h
    have hn : ser e = none := ih h
    have : ∀ c, primCode e = some c → False := fun c hc => (show ¬ NoFunc e from h) (primCode_noFunc hc)
    rw [ser, hn]; unfold encOption
    cases hc : primCode e with
    | some c => exact (this c hc).elim
    | none =>
      cases e <;> try rfl
      rename_i i
      dsimp only
      cases hi : primCode i with
      | some c => exact absurd (primCode_noFunc hi) h
      | none => rfl
  | hcoll e ih =>
    intro h
    have hn : ser e = none := ih h
    have : ∀ c, primCode e = some c → False := fun c hc => (show ¬ NoFunc e from h) (primCode_noFunc hc)
    rw [ser, hn]; unfold encColl
    cases hc : primCode e with
    | some c => exact (this c hc).elim
    | none =>
      cases e <;> try rfl
      rename_i i
      dsimp only
      cases hi : primCode i with
      | some c => exact absurd (primCode_noFunc hi) h
      | none => rfl
  | htup l ih =>
    intro h
    have : ∃ t ∈ l, ¬ NoFunc t := by
      by_cases hh : ∃ t ∈ l, ¬ NoFunc t
      · exact hh
      · exact absurd ((noFuncs_iff l).2 (fun t ht => Classical.not_not.1 (fun hn => hh ⟨t, ht, hn⟩))) h
    obtain ⟨t, ht, hn⟩ := this
    have hnone : none ∈ serItems l := by
      rw [serItems_eq]; exact List.mem_map.2 ⟨t, ht, ih t ht hn⟩
    rw [ser]
    match l, ht, hnone with
    | [t1, t2], ht, _ =>
      show encPair t1 t2 (ser t1) (ser t2) = none
      unfold encPair
      rcases List.mem_cons.1 ht with rfl | ht
      · have e1 := ih t (by simp) hn
        have c1 : primCode t = none := by
          cases hc : primCode t with
          | none => rfl
          | some c => exact absurd (primCode_noFunc hc) hn
        rw [c1, e1]
        cases primCode t2 <;> rfl
      · have : t = t2 := by simpa using ht
        subst this
        have e1 := ih t (by simp) hn
        have c1 : primCode t = none := by
          cases hc : primCode t with
          | none => rfl
          | some c => exact absurd (primCode_noFunc hc) hn
        rw [c1, e1]
        cases primCode t1 with
        | some c => rfl
        | none => cases ser t1 <;> rfl
    | [], ht, _ => cases ht
    | [t1], _, hnone =>
      show (concatOpt (serItems [t1])).map _ = none
      rw [concatOpt_none hnone]; rfl
    | [t1, t2, t3], _, hnone =>
      show (concatOpt (serItems [t1, t2, t3])).map _ = none
      rw [concatOpt_none hnone]; rfl
    | [t1, t2, t3, t4], _, hnone =>
      show (concatOpt (serItems [t1, t2, t3, t4])).map _ = none
      rw [concatOpt_none hnone]; rfl
    | t1 :: t2 :: t3 :: t4 :: t5 :: l, _, hnone =>
      show (concatOpt (serItems (t1 :: t2 :: t3 :: t4 :: t5 :: l))).map _ = none
      rw [concatOpt_none hnone]; rfl
  | hfun d r p _ _ => intro _; rfl
  | _ => exact fun h => absurd (by simp [NoFunc]) h

end SType
end Verif

namespace Verif
namespace SType
open Spec

/-! ## Every parsed type is well formed and contains no function type -/

theorem post_onPrim {Q : SType → Prop} {i : Nat} {k : SType → Parser SType} {e : Parser SType}
    (hk : ∀ t, (∃ c, primCode t = some c) → Post Q (k t)) (he : Post Q e) : Post Q (onPrim i k e) := by
  unfold onPrim; split
  · rename_i t ht
    refine hk _ ?_
    unfold primOf at ht
    split at ht <;> simp at ht <;> subst ht <;> exact ⟨_, rfl⟩
  · exact he

/-- Well formed and writable. -/
def Good (utf8 : Bytes → Bool) (t : SType) : Prop := WfType utf8 t ∧ NoFunc t

theorem good_prim {utf8 : Bytes → Bool} {t : SType} (h : ∃ c, primCode t = some c) : Good utf8 t := by
  obtain ⟨c, h⟩ := h
  rcases primCode_cases h with ⟨rfl, rfl⟩ | ⟨rfl, rfl⟩ | ⟨rfl, rfl⟩ | ⟨rfl, rfl⟩ | ⟨rfl, rfl⟩ | ⟨rfl, rfl⟩ |
    ⟨rfl, rfl⟩ | ⟨rfl, rfl⟩ <;> simp [Good, WfType, NoFunc]

theorem good_tuple {utf8 : Bytes → Bool} {l : List SType} (h2 : 2 ≤ l.length) (h255 : l.length ≤ 255)
    (h : ∀ t ∈ l, Good utf8 t) : Good utf8 (tuple l) :=
  ⟨⟨h2, h255, (wfTypes_iff utf8 l).2 (fun t ht => (h t ht).1)⟩, (noFuncs_iff l).2 (fun t ht => (h t ht).2)⟩

theorem post_parseCode (utf8 : Bytes → Bool) {p : Parser SType} (hp : Post (Good utf8) p) (c : Byte) :
    Post (Good utf8) (parseCode utf8 p c) := by
  have g1 : ∀ t, Good utf8 t → Good utf8 (coll t) := fun t h => h
  have g2 : ∀ t, Good utf8 t → Good utf8 (option t) := fun t h => h
  have gc : ∀ t, (t = any ∨ t = unit ∨ t = box ∨ t = avlTree ∨ t = context ∨ t = header ∨ t = preHeader ∨ t = global) →
      Good utf8 t := by
    intro t h
    rcases h with rfl | rfl | rfl | rfl | rfl | rfl | rfl | rfl <;> simp [Good, WfType, NoFunc]
  unfold parseCode
  refine post_onPrim (fun t h => Post.pure (good_prim h)) ?_
  refine Post.ite (fun _ => Post.bind hp (fun t ht => Post.pure (g1 t ht))) (fun _ => ?_)
  refine post_onPrim (fun t h => Post.pure (g1 t (good_prim h))) ?_
  refine post_onPrim (fun t h => Post.pure (g1 _ (g1 t (good_prim h)))) ?_
  refine Post.ite (fun _ => Post.bind hp (fun t ht => Post.pure (g2 t ht))) (fun _ => ?_)
  refine post_onPrim (fun t h => Post.pure (g2 t (good_prim h))) ?_
  refine post_onPrim (fun t h => Post.pure (g2 _ (g1 t (good_prim h)))) ?_
  refine Post.ite (fun _ => Post.bind hp (fun t ht => Post.bind hp (fun t' ht' => Post.pure
    (good_tuple (by simp) (by simp) (by simp [ht, ht']))))) (fun _ => ?_)
  refine post_onPrim (fun t h => Post.bind hp (fun t' ht' => Post.pure
    (good_tuple (by simp) (by simp) (by simp [good_prim h, ht'])))) ?_
  refine Post.ite (fun _ => Post.bind hp (fun t ht => Post.bind hp (fun t' ht' => Post.bind hp (fun t'' ht'' =>
    Post.pure (good_tuple (by simp) (by simp) (by simp [ht, ht', ht''])))))) (fun _ => ?_)
  refine post_onPrim (fun t h => Post.bind hp (fun t' ht' => Post.pure
    (good_tuple (by simp) (by simp) (by simp [good_prim h, ht'])))) ?_
  refine Post.ite (fun _ => Post.bind hp (fun t ht => Post.bind hp (fun t' ht' => Post.bind hp (fun t'' ht'' =>
    Post.bind hp (fun t3 ht3 => Post.pure (good_tuple (by simp) (by simp) (by simp [ht, ht', ht'', ht3]))))))) (fun _ => ?_)
  refine post_onPrim (fun t h => Post.pure (good_tuple (by simp) (by simp) (by simp [good_prim h]))) ?_
  refine Post.ite (fun _ => Post.bind Post.top (fun n _ => Post.bind (Post.replicateP hp _) (fun l hl =>
    Post.ite (fun hc => Post.pure (good_tuple hc.1 hc.2 hl.2)) (fun _ => Post.fail)))) (fun _ => ?_)
  refine Post.ite (fun _ => Post.pure (gc _ (by simp))) (fun _ => ?_)
  refine Post.ite (fun _ => Post.pure (gc _ (by simp))) (fun _ => ?_)
  refine Post.ite (fun _ => Post.pure (gc _ (by simp))) (fun _ => ?_)
  refine Post.ite (fun _ => Post.pure (gc _ (by simp))) (fun _ => ?_)
  refine Post.ite (fun _ => Post.pure (gc _ (by simp))) (fun _ => ?_)
  refine Post.ite (fun _ => ?_) (fun _ => ?_)
  · refine Post.bind Post.top (fun n _ => Post.bind Post.top (fun b _ => Post.ite (fun hc => Post.pure ?_)
      (fun _ => Post.fail)))
    exact ⟨⟨hc.2.1, hc.2.2, hc.1⟩, by simp [NoFunc]⟩
  refine Post.ite (fun _ => Post.pure (gc _ (by simp))) (fun _ => ?_)
  refine Post.ite (fun _ => Post.pure (gc _ (by simp))) (fun _ => ?_)
  refine Post.ite (fun _ => Post.pure (gc _ (by simp))) (fun _ => ?_)
  exact Post.fail

theorem parsed_good (utf8 : Bytes → Bool) : Post (Good utf8) (parse utf8) :=
  Post.fixP (fun p hp => Post.bind Post.top (fun c _ => post_parseCode utf8 hp c))

theorem prefixes_onPrim {i : Nat} {k : SType → Parser SType} {e : Parser SType} (hk : ∀ t, Prefixes (k t))
    (he : Prefixes e) : Prefixes (onPrim i k e) := by
  unfold onPrim; split
  · exact hk _
  · exact he

theorem prefixes_parseCode (utf8 : Bytes → Bool) {p : Parser SType} (hp : Prefixes p) (c : Byte) :
    Prefixes (parseCode utf8 p c) := by
  unfold parseCode parseVar
  repeat' first
    | exact Prefixes.pure _
    | exact Prefixes.fail
    | exact hp
    | exact Prefixes.getU8
    | exact Prefixes.readExact _
    | exact Prefixes.replicateP hp _
    | refine prefixes_onPrim (fun _ => ?_) ?_
    | refine Prefixes.ite ?_ ?_
    | refine Prefixes.bind ?_ (fun _ => ?_)

theorem prefixes_parse (utf8 : Bytes → Bool) : Prefixes (parse utf8) :=
  Prefixes.fixP (fun p hp => Prefixes.bind Prefixes.getU8 (fun c => prefixes_parseCode utf8 hp c))

end SType
end Verif
