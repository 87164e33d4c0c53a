import Verif.Proofs.SType
import Verif.Proofs.BigInt
import Verif.Proofs.VlqGet
import Verif.Proofs.SigmaBoolean
import Verif.Spec.Constant

set_option linter.unusedSimpArgs false
set_option linter.unusedVariables false

namespace Verif
namespace Literal
open Spec

theorem avlFlags_roundtrip (b : Byte) (h : b.toNat < 8) : avlFlagsParse b = b := by
  have : ∀ n : Fin 8, avlFlagsParse (BitVec.ofNat 8 n.val) = BitVec.ofNat 8 n.val := by decide
  have e := this ⟨b.toNat, h⟩
  simpa using e

theorem avlFlagsParse_lt (b : Byte) : (avlFlagsParse b).toNat < 8 := by
  unfold avlFlagsParse avlFlagsNew
  generalize (b &&& 1 != 0) = x, (b &&& 2 != 0) = y, (b &&& 4 != 0) = z
  revert x y z; decide

theorem getU8_put (b : Byte) (s : Bytes) : getU8 (putU8 b ++ s) = Option.some (b, s) := rfl

theorem getAvl_put (a : AvlTreeData) (hd : a.digest.length = 33) (hf : a.flags.toNat < 8) (rest : Bytes) :
    getAvl (putAvl a ++ rest) = Option.some (a, rest) := by
  obtain ⟨d, f, k, v⟩ := a
  simp only [putAvl, List.append_assoc] at *
  unfold getAvl
  rw [Parser.bind_some (readExact_append' _ _ hd)]
  rw [Parser.bind_some (getU8_put _ _), Parser.bind_some (getU32_put _ _)]
  rw [Parser.bind_some (getOptBox_put (P := fun _ => True) (fun a _ rest => getU32_put a rest) v (fun _ _ => trivial) rest)]
  simp [avlFlags_roundtrip f hf]

theorem putLen16_ok {n : Nat} (h : n ≤ 65535) : putLen16 n = .ok (putU16 (BitVec.ofNat 16 n)) := by
  unfold putLen16 putUsizeAsU16
  rw [if_pos (by omega)]

theorem len16 {n : Nat} (h : n ≤ 65535) : (BitVec.ofNat 16 n).toNat = n := by
  simp only [BitVec.toNat_ofNat]; omega

theorem boolsOf_of_all {G B : Type} {bwf : B → Prop} : ∀ (items : List (Literal G B)), AllOf bwf items .bool →
    ∃ bs, boolsOf items = Option.some bs ∧ items = bs.map Literal.bool
  | [], _ => ⟨[], rfl, rfl⟩
  | x :: l, h => by
    obtain ⟨hx, hl⟩ := h
    obtain ⟨bs, e1, e2⟩ := boolsOf_of_all l hl
    cases x <;> simp [WellTyped] at hx
    rename_i b
    exact ⟨b :: bs, by simp [boolsOf, boolOf, e1], by simp [e2]⟩

/-- Round trip of one literal at a type. -/
def Rt {G B : Type} [DecidableEq G] (pc : PointCodec G) (bc : BoxCodec B) (v : Literal G B) (t : SType) : Prop :=
  ∃ bs, ser pc bc v = .ok bs ∧ ∀ rest, parse pc bc t (bs ++ rest) = Option.some (v, rest)

theorem parse_coll_other {G B : Type} (pc : PointCodec G) (bc : BoxCodec B) (e : SType) (h1 : e ≠ .byte)
    (h2 : e ≠ .bool) : parse pc bc (.coll e) = (do
      let n ← getU16
      let items ← replicateP n.toNat (parse pc bc e)
      pure (coll e items)) := by
  cases e <;> first | rfl | exact absurd rfl h1 | exact absurd rfl h2

theorem isBoolT_iff (e : SType) : isBoolT e = true ↔ e = .bool := by cases e <;> simp [isBoolT]

mutual
theorem rt {G B : Type} [DecidableEq G] (pc : PointCodec G) (bc : BoxCodec B) (bwf : B → Prop)
    (hb : BoxRoundTrips bc bwf) : ∀ (v : Literal G B) (t : SType), WellTyped bwf v t → Rt pc bc v t
  | .unit, t, h => by
    cases t <;> simp [WellTyped] at h
    exact ⟨[], by simp [ser], fun rest => by rw [parse]; rfl⟩
  | .bool b, t, h => by
    cases t <;> simp [WellTyped] at h
    refine ⟨_, by rw [ser], fun rest => ?_⟩
    rw [parse]
    cases b <;> rfl
  | .byte b, t, h => by
    cases t <;> simp [WellTyped] at h
    refine ⟨_, by rw [ser], fun rest => ?_⟩
    rw [parse]; rfl
  | .short v, t, h => by
    cases t <;> simp [WellTyped] at h
    refine ⟨_, by rw [ser], fun rest => ?_⟩
    rw [parse, Parser.bind_some (getI16_put v rest)]; rfl
  | .int v, t, h => by
    cases t <;> simp [WellTyped] at h
    refine ⟨_, by rw [ser], fun rest => ?_⟩
    rw [parse, Parser.bind_some (getI32_put v rest)]; rfl
  | .long v, t, h => by
    cases t <;> simp [WellTyped] at h
    refine ⟨_, by rw [ser], fun rest => ?_⟩
    rw [parse, Parser.bind_some (getI64_put v rest)]; rfl
  | .bigInt v, t, h => by
    cases t <;> simp only [WellTyped] at h
    refine ⟨_, by rw [ser], fun rest => ?_⟩
    have hl := toSignedBe_length_le v h.1 h.2
    rw [parse]
    unfold parseBig
    rw [List.append_assoc, Parser.bind_some (getU16_put _ _), len16 (by omega), if_neg (by omega),
      Parser.bind_some (readExact_append _ _), signedOfBe_toSignedBe]
    unfold bigInt256
    rw [if_pos h]; rfl
  | .groupElement g, t, h => by
    cases t <;> simp [WellTyped] at h
    refine ⟨_, by rw [ser], fun rest => ?_⟩
    rw [parse, Parser.bind_some (getPoint_putPoint pc g rest)]; rfl
  | .sigmaProp p, t, h => by
    cases t <;> simp only [WellTyped] at h
    refine ⟨_, by rw [ser], fun rest => ?_⟩
    rw [parse, Parser.bind_some (SigmaBoolean.parse_ser pc p h rest)]; rfl
  | .avlTree a, t, h => by
    cases t <;> simp only [WellTyped] at h
    refine ⟨_, by rw [ser], fun rest => ?_⟩
    rw [parse, Parser.bind_some (getAvl_put a h.1 h.2 rest)]; rfl
  | .box b, t, h => by
    cases t <;> simp only [WellTyped] at h
    obtain ⟨bs, e, hp⟩ := hb b h
    refine ⟨bs, by rw [ser, e], fun rest => ?_⟩
    rw [parse, Parser.bind_some (hp rest)]; rfl
  | .collByte l, t, h => by
    cases t <;> simp only [WellTyped] at h
    obtain ⟨rfl, hl⟩ := h
    refine ⟨putU16 (BitVec.ofNat 16 l.length) ++ l, by rw [ser, putLen16_ok hl]; rfl, fun rest => ?_⟩
    rw [parse, List.append_assoc, Parser.bind_some (getU16_put _ _), len16 hl,
      Parser.bind_some (readExact_append _ _)]; rfl
  | .coll e items, t, h => by
    cases t <;> simp only [WellTyped] at h
    obtain ⟨rfl, hne, hl, hall⟩ := h
    by_cases hbo : e = .bool
    · subst hbo
      obtain ⟨bs, e1, e2⟩ := boolsOf_of_all items hall
      have hlen : items.length = bs.length := by rw [e2]; simp
      refine ⟨putU16 (BitVec.ofNat 16 items.length) ++ putBits bs, ?_, fun rest => ?_⟩
      · rw [ser, putLen16_ok hl, e1]; rfl
      · rw [parse, List.append_assoc, Parser.bind_some (getU16_put _ _), len16 hl, hlen,
          Parser.bind_some (getBits_put bs rest), e2]; rfl
    · obtain ⟨bs, e1, hp⟩ := rtAll pc bc bwf hb items e hall
      refine ⟨putU16 (BitVec.ofNat 16 items.length) ++ bs, ?_, fun rest => ?_⟩
      · have : isBoolT e = false := by
          cases hx : isBoolT e with
          | false => rfl
          | true => exact absurd ((isBoolT_iff e).1 hx) hbo
        rw [ser, putLen16_ok hl, this, e1]; rfl
      · rw [parse_coll_other pc bc e hne hbo, List.append_assoc, Parser.bind_some (getU16_put _ _), len16 hl,
          Parser.bind_some (hp rest)]; rfl
  | .tup items, t, h => by
    cases t <;> simp only [WellTyped] at h
    obtain ⟨h2, h255, hp⟩ := h
    obtain ⟨bs, e1, hq⟩ := rtPoint pc bc bwf hb items _ hp
    refine ⟨bs, by rw [ser, e1], fun rest => ?_⟩
    rw [parse, Parser.bind_some (hq rest), if_pos ⟨h2, h255⟩]; rfl
  | .none, t, h => by cases t <;> simp [WellTyped] at h
  | .some _, t, h => by cases t <;> simp [WellTyped] at h
theorem rtAll {G B : Type} [DecidableEq G] (pc : PointCodec G) (bc : BoxCodec B) (bwf : B → Prop)
    (hb : BoxRoundTrips bc bwf) : ∀ (items : List (Literal G B)) (e : SType), AllOf bwf items e →
    ∃ bs, serAll pc bc items = .ok bs ∧
      ∀ rest, replicateP items.length (parse pc bc e) (bs ++ rest) = Option.some (items, rest)
  | [], e, _ => ⟨[], by rw [serAll], fun rest => rfl⟩
  | x :: l, e, h => by
    obtain ⟨hx, hl⟩ := h
    obtain ⟨b, e1, p1⟩ := rt pc bc bwf hb x e hx
    obtain ⟨bs, e2, p2⟩ := rtAll pc bc bwf hb l e hl
    refine ⟨b ++ bs, by rw [serAll, e1, e2]; rfl, fun rest => ?_⟩
    rw [List.append_assoc]
    show (parse pc bc e >>= fun a => replicateP l.length (parse pc bc e) >>= fun as => pure (a :: as)) _ = _
    rw [Parser.bind_some (p1 _), Parser.bind_some (p2 _)]; rfl
theorem rtPoint {G B : Type} [DecidableEq G] (pc : PointCodec G) (bc : BoxCodec B) (bwf : B → Prop)
    (hb : BoxRoundTrips bc bwf) : ∀ (items : List (Literal G B)) (ts : List SType), Pointwise bwf items ts →
    ∃ bs, serAll pc bc items = .ok bs ∧ ∀ rest, parseAll pc bc ts (bs ++ rest) = Option.some (items, rest)
  | [], [], _ => ⟨[], by rw [serAll], fun rest => by rw [parseAll]; rfl⟩
  | x :: l, t :: ts, h => by
    obtain ⟨hx, hl⟩ := h
    obtain ⟨b, e1, p1⟩ := rt pc bc bwf hb x t hx
    obtain ⟨bs, e2, p2⟩ := rtPoint pc bc bwf hb l ts hl
    refine ⟨b ++ bs, by rw [serAll, e1, e2]; rfl, fun rest => ?_⟩
    rw [List.append_assoc, parseAll, Parser.bind_some (p1 _), Parser.bind_some (p2 _)]; rfl
  | [], _ :: _, h => h.elim
  | _ :: _, [], h => h.elim
end

/-! ## Parsed literals are well typed -/

theorem post_getU16 : Post (fun v : BitVec 16 => v.toNat ≤ 65535) getU16 :=
  fun s a r e => by have := a.isLt; omega

theorem allOf_iff {G B : Type} {bwf : B → Prop} (items : List (Literal G B)) (e : SType) :
    AllOf bwf items e ↔ ∀ x ∈ items, WellTyped bwf x e := by
  induction items with
  | nil => simp [AllOf]
  | cons a l ih => simp [AllOf, ih]

theorem post_getBits (n : Nat) : Post (fun l : List Bool => l.length = n) (getBits n) := by
  intro s a r e
  unfold getBits at e
  obtain ⟨buf, s', h1, h2⟩ := Parser.bind_eq_some.1 e
  have hl := Post.readExact _ _ _ _ h1
  simp only [Parser.pure_run, Option.some.injEq, Prod.mk.injEq] at h2
  rw [← h2.1]
  simp only [List.length_take]
  have : (buf.flatMap unpackByte).length = 8 * buf.length := by
    clear h1 h2 hl e
    induction buf with
    | nil => rfl
    | cons b l ih => simp [ih, unpackByte]; omega
  rw [this, hl]; omega

mutual
theorem parsed {G B : Type} [DecidableEq G] (pc : PointCodec G) (bc : BoxCodec B) (bwf : B → Prop)
    (hb : BoxParsed bc bwf) : ∀ t : SType, Post (fun v : Literal G B => WellTyped bwf v t) (parse pc bc t)
  | .bool => by rw [parse]; exact Post.bind Post.top (fun _ _ => Post.pure (by simp [WellTyped]))
  | .byte => by rw [parse]; exact Post.bind Post.top (fun _ _ => Post.pure (by simp [WellTyped]))
  | .short => by rw [parse]; exact Post.bind Post.top (fun _ _ => Post.pure (by simp [WellTyped]))
  | .int => by rw [parse]; exact Post.bind Post.top (fun _ _ => Post.pure (by simp [WellTyped]))
  | .long => by rw [parse]; exact Post.bind Post.top (fun _ _ => Post.pure (by simp [WellTyped]))
  | .bigInt => by
    rw [parse]
    unfold parseBig
    refine Post.bind Post.top (fun _ _ => Post.ite (fun _ => Post.fail) (fun _ => ?_))
    refine Post.bind Post.top (fun buf _ => Post.bind (Post.ofOption (Q := fun n => -2 ^ 255 ≤ n ∧ n ≤ 2 ^ 255 - 1)
      (fun n hn => ?_)) (fun n hn => Post.pure (by rw [WellTyped]; exact hn)))
    unfold bigInt256 at hn
    split at hn
    · simp only [Option.some.injEq] at hn; subst hn; assumption
    · cases hn
  | .unit => by rw [parse]; exact Post.pure (by simp [WellTyped])
  | .groupElement => by rw [parse]; exact Post.bind Post.top (fun _ _ => Post.pure (by simp [WellTyped]))
  | .sigmaProp => by
    rw [parse]
    exact Post.bind (Q := SigmaBoolean.Bounded) (fun s a r e => SigmaBoolean.parse_bounded pc s a r e)
      (fun p hp => Post.pure (by rw [WellTyped]; exact hp))
  | .coll e => by
    have ih := parsed pc bc bwf hb e
    by_cases h1 : e = .byte
    · subst h1
      rw [parse]
      exact Post.bind post_getU16 (fun n hn => Post.bind (Post.readExact _) (fun l hl => Post.pure
        (by rw [WellTyped]; exact ⟨rfl, by omega⟩)))
    · by_cases h2 : e = .bool
      · subst h2
        rw [parse]
        refine Post.bind post_getU16 (fun n hn => Post.bind (post_getBits _) (fun l hl => Post.pure ?_))
        rw [WellTyped]
        refine ⟨rfl, by simp, by simp; omega, (allOf_iff _ _).2 ?_⟩
        intro x hx
        obtain ⟨b, _, rfl⟩ := List.mem_map.1 hx
        simp [WellTyped]
      · rw [parse_coll_other pc bc e h1 h2]
        exact Post.bind post_getU16 (fun n hn => Post.bind (Post.replicateP ih _) (fun l hl => Post.pure
          (by rw [WellTyped]; exact ⟨rfl, h1, by omega, (allOf_iff _ _).2 hl.2⟩)))
  | .tuple ts => by
    rw [parse]
    exact Post.bind (parsedAll pc bc bwf hb ts) (fun items hp => Post.ite (fun hc => Post.pure
      (by rw [WellTyped]; exact ⟨hc.1, hc.2, hp⟩)) (fun _ => Post.fail))
  | .box => by
    rw [parse]
    exact Post.bind (Q := bwf) (fun s a r e => hb s a r e) (fun b h => Post.pure (by rw [WellTyped]; exact h))
  | .avlTree => by
    rw [parse]
    unfold getAvl
    refine Post.bind (Q := fun a : AvlTreeData => a.digest.length = 33 ∧ a.flags.toNat < 8) ?_
      (fun a h => Post.pure (by rw [WellTyped]; exact h))
    exact Post.bind (Post.readExact 33) (fun d hd => Post.bind Post.top (fun f _ => Post.bind Post.top (fun k _ =>
      Post.bind Post.top (fun v _ => Post.pure ⟨hd, avlFlagsParse_lt f⟩))))
  | .typeVar _ => by rw [parse]; exact Post.fail
  | .any => by rw [parse]; exact Post.fail
  | .option _ => by rw [parse]; exact Post.fail
  | .func _ _ _ => by rw [parse]; exact Post.fail
  | .context => by rw [parse]; exact Post.fail
  | .header => by rw [parse]; exact Post.fail
  | .preHeader => by rw [parse]; exact Post.fail
  | .global => by rw [parse]; exact Post.fail
theorem parsedAll {G B : Type} [DecidableEq G] (pc : PointCodec G) (bc : BoxCodec B) (bwf : B → Prop)
    (hb : BoxParsed bc bwf) : ∀ ts : List SType,
    Post (fun v : List (Literal G B) => Pointwise bwf v ts) (parseAll pc bc ts)
  | [] => by rw [parseAll]; exact Post.pure (by simp [Pointwise])
  | t :: ts => by
    rw [parseAll]
    exact Post.bind (parsed pc bc bwf hb t) (fun v hv => Post.bind (parsedAll pc bc bwf hb ts)
      (fun vs hvs => Post.pure ⟨hv, hvs⟩))
end

end Literal
end Verif
