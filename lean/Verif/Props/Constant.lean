import Verif.Proofs.Constant
import Verif.Proofs.ArithBytes

/-!
# C14 – constants round-trip with their type
-/

namespace Verif
open Spec

/-- C14: every well-typed constant (any nesting of collections and tuples) is written, and reading it back in any stream
gives the same constant and leaves exactly the bytes that followed.  `bwf` are the boxes the box codec handles. -/
theorem C14_roundtrip {G B : Type} [DecidableEq G] (utf8 : Bytes → Bool) (pc : PointCodec G) (bc : BoxCodec B)
    (bwf : B → Prop) (hb : BoxRoundTrips bc bwf) (c : Constant G B) (hw : WfType utf8 c.tpe) (hf : NoFunc c.tpe)
    (ht : WellTyped bwf c.v c.tpe) :
    ∃ bs, c.ser pc bc = .ok bs ∧ ∀ rest, Constant.parse utf8 pc bc (bs ++ rest) = some (c, rest) := by
  obtain ⟨t, v⟩ := c
  obtain ⟨bt, e1, p1⟩ := SType.roundTrip utf8 t hw hf
  obtain ⟨bv, e2, p2⟩ := Literal.rt pc bc bwf hb v t ht
  refine ⟨bt ++ bv, ?_, fun rest => ?_⟩
  · unfold Constant.ser
    simp only [e1, e2, Outcome.bind_ok, Outcome.pure_eq]
  · have h : SType.parse utf8 (bt ++ (bv ++ rest)) = some (t, bv ++ rest) := p1 _
    rw [List.append_assoc]
    rw [SType.parse_eq] at h
    obtain ⟨code, s', h1, h2⟩ := Parser.bind_eq_some.1 h
    unfold Constant.parse
    rw [Parser.bind_some h1]
    unfold Constant.parseCode
    rw [Parser.bind_some h2, Parser.bind_some (p2 rest)]; rfl

/-- A box codec for constants without boxes. -/
def noBox : BoxCodec Empty := { ser := fun _ => .err, parse := Parser.fail }

/-- `(Coll(true, false, true), Coll((-5 : BigInt, Coll(1, 2) : Coll[Byte])))`. -/
def c14Example : Constant (Fin 3) Empty where
  tpe := .tuple [.coll .bool, .coll (.tuple [.bigInt, .coll .byte])]
  v := .tup [.coll .bool [.bool true, .bool false, .bool true],
    .coll (.tuple [.bigInt, .coll .byte]) [.tup [.bigInt (-5), .collByte [1, 2]]]]

example : BoxRoundTrips noBox (fun _ => True) := fun b => b.elim

example : WfType (fun _ => true) c14Example.tpe ∧ NoFunc c14Example.tpe ∧
    WellTyped (fun _ => True) c14Example.v c14Example.tpe ∧
    c14Example.ser toyCodec noBox = .ok [60, 13, 12, 66, 14, 3, 5, 1, 1, 251, 2, 1, 2] := by
  refine ⟨?_, ?_, ?_, by decide +kernel⟩
  · simp [c14Example, WfType, WfTypes]
  · simp [c14Example, NoFunc, NoFuncs]
  · simp [c14Example, WellTyped, Pointwise, AllOf]

/-- C14: the data part alone round-trips at its type. -/
theorem C14_data_roundtrip {G B : Type} [DecidableEq G] (pc : PointCodec G) (bc : BoxCodec B)
    (bwf : B → Prop) (hb : BoxRoundTrips bc bwf) (v : Literal G B) (t : SType) (ht : WellTyped bwf v t) :
    ∃ bs, v.ser pc bc = .ok bs ∧ ∀ rest, Literal.parse pc bc t (bs ++ rest) = some (v, rest) :=
  Literal.rt pc bc bwf hb v t ht

/-- C14: constants are told apart by their bytes, in any context. -/
theorem C14_prefix_free {G B : Type} [DecidableEq G] (utf8 : Bytes → Bool) (pc : PointCodec G) (bc : BoxCodec B)
    (bwf : B → Prop) (hb : BoxRoundTrips bc bwf) (c d : Constant G B)
    (hw : WfType utf8 c.tpe) (hf : NoFunc c.tpe) (ht : WellTyped bwf c.v c.tpe)
    (hw' : WfType utf8 d.tpe) (hf' : NoFunc d.tpe) (ht' : WellTyped bwf d.v d.tpe)
    (bc' bd r r' : Bytes) (ec : c.ser pc bc = .ok bc') (ed : d.ser pc bc = .ok bd) (e : bc' ++ r = bd ++ r') :
    c = d ∧ r = r' := by
  obtain ⟨b1, e1, p1⟩ := C14_roundtrip utf8 pc bc bwf hb c hw hf ht
  obtain ⟨b2, e2, p2⟩ := C14_roundtrip utf8 pc bc bwf hb d hw' hf' ht'
  rw [ec] at e1; rw [ed] at e2
  cases e1; cases e2
  have h := p1 r
  rw [e, p2 r'] at h
  simp only [Option.some.injEq, Prod.mk.injEq] at h
  exact ⟨h.1.symm, h.2.symm⟩

/-- C14: whatever is read is a well-typed constant of a writable type, hence it can be written and read again with the
same result. -/
theorem C14_parsed {G B : Type} [DecidableEq G] (utf8 : Bytes → Bool) (pc : PointCodec G) (bc : BoxCodec B)
    (bwf : B → Prop) (hb : BoxRoundTrips bc bwf) (hp : BoxParsed bc bwf) (s r : Bytes) (c : Constant G B)
    (h : Constant.parse utf8 pc bc s = some (c, r)) :
    WellTyped bwf c.v c.tpe ∧ WfType utf8 c.tpe ∧ NoFunc c.tpe ∧
    ∃ bs, c.ser pc bc = .ok bs ∧ ∀ rest, Constant.parse utf8 pc bc (bs ++ rest) = some (c, rest) := by
  unfold Constant.parse Constant.parseCode at h
  obtain ⟨code, s1, h1, h2⟩ := Parser.bind_eq_some.1 h
  obtain ⟨t, s2, h3, h4⟩ := Parser.bind_eq_some.1 h2
  obtain ⟨v, s3, h5, h6⟩ := Parser.bind_eq_some.1 h4
  simp only [Parser.pure_run, Option.some.injEq, Prod.mk.injEq] at h6
  obtain ⟨rfl, rfl⟩ := h6
  obtain ⟨hw, hf⟩ := SType.post_parseCode utf8 (SType.parsed_good utf8) code _ _ _ h3
  have ht := Literal.parsed pc bc bwf hp t _ _ _ h5
  exact ⟨ht, hw, hf, C14_roundtrip utf8 pc bc bwf hb ⟨t, v⟩ hw hf ht⟩

example : BoxParsed noBox (fun _ => True) := fun _ b => b.elim

example : Constant.parse (fun _ => true) toyCodec noBox [16, 2, 3, 4, 7] =
    some (⟨.coll .int, .coll .int [.int (-2), .int 2]⟩, [7]) := by rfl

/-- C14, the limits of the writer: a collection with more than 65535 elements is a panic, not an error. -/
theorem C14_long_collection_panics {G B : Type} [DecidableEq G] (pc : PointCodec G) (bc : BoxCodec B) (e : SType)
    (items : List (Literal G B)) (h : 65535 < items.length) (bytes : Bytes) (h' : 65535 < bytes.length) :
    (Literal.coll e items).ser pc bc = .panic ∧ (Literal.collByte bytes : Literal G B).ser pc bc = .panic := by
  have p : ∀ n, 65535 < n → Literal.putLen16 n = .panic := by
    intro n hn
    unfold Literal.putLen16 putUsizeAsU16
    rw [if_neg (by omega)]
  refine ⟨?_, ?_⟩
  · rw [Literal.ser, p _ h]; rfl
  · rw [Literal.ser, p _ h']; rfl

example : ∃ (items : List (Literal (Fin 3) Empty)), 65535 < items.length :=
  ⟨List.replicate 65536 .unit, by rw [List.length_replicate]; decide⟩

/-- C14: a `BigInt` of more than 32 bytes is refused, whatever its value; so every `BigInt` that is read has at most 32 bytes. -/
theorem C14_long_bigint_refused {G B : Type} (pc : PointCodec G) (bc : BoxCodec B) (size : BitVec 16) (h : 32 < size.toNat) (rest : Bytes) :
    Literal.parse pc bc .bigInt (putU16 size ++ rest) = none := by
  rw [Literal.parse]
  unfold Literal.parseBig
  rw [Parser.bind_some (getU16_put _ _), if_pos h]
  rfl

/-- C14: up to that length every byte string is a `BigInt`: the number it is in two's complement. -/
theorem C14_bigint_read {G B : Type} (pc : PointCodec G) (bc : BoxCodec B) (buf rest : Bytes) (h : buf.length ≤ 32) :
    Literal.parse pc bc .bigInt (putU16 (BitVec.ofNat 16 buf.length) ++ (buf ++ rest)) = some (.bigInt (twos buf), rest) := by
  have hl : (BitVec.ofNat 16 buf.length).toNat = buf.length := by rw [BitVec.toNat_ofNat]; omega
  have hf : bigInt256 (signedOfBe buf) = some (signedOfBe buf) := by
    apply bigInt256_some
    cases buf with
    | nil => exact ⟨by decide, by decide⟩
    | cons b l =>
      have hb := signedOfBe_bounds (b :: l) (by simp)
      have hp : 2 ^ (8 * (b :: l).length - 1) ≤ 2 ^ 255 := Nat.pow_le_pow_right (by decide) (by omega)
      generalize 2 ^ (8 * (b :: l).length - 1) = q at hb hp
      refine ⟨?_, ?_⟩
      · have : (q : Int) ≤ (2 ^ 255 : Nat) := by exact_mod_cast hp
        push_cast at this
        show -2 ^ 255 ≤ _
        exact le_trans (neg_le_neg this) hb.1
      · have : (q : Int) ≤ (2 ^ 255 : Nat) := by exact_mod_cast hp
        push_cast at this
        exact lt_of_lt_of_le hb.2 this
  rw [Literal.parse]
  unfold Literal.parseBig
  rw [Parser.bind_some (getU16_put _ _), if_neg (by omega), hl]
  have hr : readExact buf.length (buf ++ rest) = some (buf, rest) := by
    unfold readExact
    rw [if_pos (by simp)]
    simp
  rw [Parser.bind_some hr, hf, twos_eq]
  rfl

/-- C14, the limits of the writer: options have no byte form. -/
theorem C14_option_refused {G B : Type} [DecidableEq G] (pc : PointCodec G) (bc : BoxCodec B) (v : Literal G B) :
    (Literal.none : Literal G B).ser pc bc = .err ∧ (Literal.some v).ser pc bc = .err := by
  constructor <;> rw [Literal.ser]

/-- Finding: the reader accepts several encodings of one value: any non-zero byte is `true`, high flag bits of a tree
are dropped, integers may carry redundant leading bytes. -/
theorem C14_not_canonical :
    Literal.parse toyCodec noBox .bool [7] = some (.bool true, []) ∧
    Literal.parse toyCodec noBox .bigInt [2, 0, 5] = some (.bigInt 5, []) ∧
    Literal.parse toyCodec noBox .bigInt [0] = some (.bigInt 0, []) ∧
    avlFlagsParse 0xF9 = 1 := by
  refine ⟨rfl, rfl, rfl, rfl⟩

end Verif
