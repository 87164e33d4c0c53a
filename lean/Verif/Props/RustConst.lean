import Verif.Proofs.RustConst
import Verif.Props.Constant
import Verif.Proofs.Subst
import Verif.Spec.Box

/-!
# C81 – Rust values stored in constants come back
-/

set_option linter.unusedVariables false

namespace Verif
open Spec

/-- A type used in the examples: `(Vec<(i64, Vec<u8>)>, Vec<bool>, BigInt256)`. -/
def c81Type : RTy := .tup [.vec (.tup [.i64, .bytes]), .vec .bool, .bigInt]

/-- `(vec![(7, vec![1, 2])], vec![true, false], -5)`. -/
def c81Val : c81Type.Val (Fin 3) Empty := ([((7 : BitVec 64), ([1, 2] : List (BitVec 8)), ())], [true, false], (-5 : Int), ())

/-- C81: whatever Rust value is turned into a constant, extracting at the same type gives it back – for all types with both
conversions, however deeply vectors, options and tuples are nested. -/
theorem C81_roundtrip {G B : Type} (t : RTy) (x : t.Val G B) : t.extractConst (t.toConst x) = some x :=
  RTy.extract_toConst t x

example : c81Type.conv = true ∧ c81Type.toConst c81Val =
    ⟨.tuple [.coll (.tuple [.long, .coll .byte]), .coll .bool, .bigInt],
     .tup [.coll (.tuple [.long, .coll .byte]) [.tup [.long 7, .collByte [1, 2]]], .coll .bool [.bool true, .bool false],
       .bigInt (-5)]⟩ := ⟨rfl, rfl⟩

/-- C81: different values give different constants. -/
theorem C81_injective {G B : Type} (t : RTy) (x y : t.Val G B) (h : t.toConst x = t.toConst y) : x = y := by
  have e := C81_roundtrip t x
  rw [h, C81_roundtrip t y] at e
  exact (Option.some.inj e).symm

example : (RTy.opt (.vec .i32)).toConst (G := Fin 3) (B := Empty) none ≠ (RTy.opt (.vec .i32)).toConst (some []) := by
  simp [RTy.toConst]

/-- C81: the constant of a storable value is one that boxes and inputs can hold (`GoodConst`): its type has a byte form and its value
belongs to its type. -/
theorem C81_typed {G B : Type} (utf8 : Bytes → Bool) (bwf : B → Prop) (t : RTy) (hc : t.conv = true) (x : t.Val G B)
    (hs : Storable bwf t x) : GoodConst utf8 bwf (t.toConst x) := by
  unfold GoodConst
  rw [RTy.toConst_tpe]
  exact ⟨(RTy.stype_wf utf8 t hc).1, (RTy.stype_wf utf8 t hc).2, RTy.toConst_typed bwf t x hc hs⟩

example : c81Type.conv = true ∧ Storable (fun _ => True) c81Type c81Val := by
  refine ⟨rfl, ?_⟩
  simp [c81Type, c81Val, Storable, StorableAll]
  exact ⟨⟨by decide, fun x hx => by cases hx with | head => decide | tail _ h => cases h⟩, by decide⟩

/-- C81: a storable value survives being written to bytes and read in any stream; that is what storing it in a register or in the
context of an input means. -/
theorem C81_bytes {G B : Type} [DecidableEq G] (utf8 : Bytes → Bool) (pc : PointCodec G) (bc : BoxCodec B) (bwf : B → Prop)
    (hb : BoxRoundTrips bc bwf) (t : RTy) (hc : t.conv = true) (x : t.Val G B)
    (hs : Storable bwf t x) :
    ∃ bs, (t.toConst x).ser pc bc = .ok bs ∧
      ∀ rest, ∃ c, Constant.parse utf8 pc bc (bs ++ rest) = some (c, rest) ∧ t.extractConst c = some x := by
  obtain ⟨h1, h2, h3⟩ := C81_typed utf8 bwf t hc x hs
  obtain ⟨bs, e, p⟩ := C14_roundtrip utf8 pc bc bwf hb (t.toConst x) h1 h2 h3
  exact ⟨bs, e, fun rest => ⟨_, p rest, C81_roundtrip t x⟩⟩

example : (c81Type.toConst c81Val).ser toyCodec noBox = .ok [72, 12, 65, 14, 13, 6, 1, 14, 2, 1, 2, 2, 1, 1, 251] := by
  decide +kernel

/-- C81: a constant of the type of `T` – for instance one read from bytes – can be extracted as `T`, and the value extracted determines
it: turning it back gives the same constant.  (`Digest32` has the type of all byte arrays, see `C81_digest`.) -/
theorem C81_exact {G B : Type} (bwf : B → Prop) (t : RTy) (hc : t.conv = true) (hd : NoDigest t) (c : Constant G B)
    (ht : c.tpe = t.stype) (hw : WellTyped bwf c.v c.tpe) : ∃ x, t.extractConst c = some x ∧ t.toConst x = c := by
  obtain ⟨x, e1, e2⟩ := RTy.extract_typed bwf t c.v hc hd (ht ▸ hw)
  refine ⟨x, e1, ?_⟩
  have h := RTy.toConst_tpe t x
  cases hx : t.toConst x with
  | mk tpe v =>
    rw [hx] at e2 h
    cases c with
    | mk tpe' v' =>
      simp only at e2 h ht
      rw [h, e2, ht]

example : WellTyped (fun _ : Empty => True) (.coll .int [.int 1, .int 2] : Literal (Fin 3) Empty) (RTy.vec .i32).stype ∧
    NoDigest (.vec .i32) := by
  simp [RTy.stype, WellTyped, AllOf, NoDigest]

/-- C81: digests and token ids are extracted exactly from byte arrays of 32 bytes. -/
theorem C81_digest {G B : Type} (v : Literal G B) (d : { b : Bytes // b.length = 32 }) :
    RTy.extract .digest v = some d ↔ v = .collByte d.1 := by
  constructor
  · intro h
    cases v <;> simp only [RTy.extract] at h <;> try exact absurd h (by simp)
    rename_i l
    by_cases hl : l.length = 32
    · rw [dif_pos hl] at h
      rw [← Option.some.inj h]
    · rw [dif_neg hl] at h
      exact absurd h (by simp)
  · rintro rfl
    exact RTy.extract_toConst .digest d

example : (List.replicate 32 (7 : BitVec 8)).length = 32 := rfl

/-- The full claim about types that do not match (`mir/constant.rs:601`: "return an error if type does not match"): a well-typed
constant can be extracted as `T` only if its type is the one of `T`.  It does not hold, see `C81_longer_tuple_violates` and
`C81_empty_violates`. -/
def C81_mismatch_claim : Prop :=
  ∀ (t : RTy) (c : Constant (Fin 3) Empty) (x : t.Val (Fin 3) Empty), t.conv = true →
    WellTyped (fun _ : Empty => True) c.v c.tpe → t.extractConst c = some x → c.tpe = t.stype

/-- C81: extraction of a constant of another type fails, with exactly two exceptions: a tuple may have more items than asked for, and
an empty collection has no items to be checked.  Without empty collections a constant is extracted exactly if its type covers the type
asked for, that is, they agree except for the lengths of tuples. -/
theorem C81_mismatch_partial {G B : Type} (bwf : B → Prop) (t : RTy) (hc : t.conv = true) (hd : NoDigest t) (c : Constant G B)
    (hw : WellTyped bwf c.v c.tpe) (hf : Full c.v) : (t.extractConst c).isSome = true ↔ TypeCovers c.tpe t.stype :=
  RTy.extract_iff bwf t c.v c.tpe hc hd hw hf

example : ¬ TypeCovers (.coll .long) (RTy.vec .i32).stype ∧ TypeCovers (.tuple [.int, .long]) (RTy.tup [.i32, .i64]).stype ∧
    ¬ TypeCovers (.tuple [.int, .long]) (RTy.tup [.i32, .i64, .bool]).stype ∧
    Full (.coll .long [.long 5] : Literal (Fin 3) Empty) ∧
    WellTyped (fun _ : Empty => True) (.coll .long [.long 5] : Literal (Fin 3) Empty) (.coll .long) := by
  simp [TypeCovers, TypesCover, RTy.stype, RTy.stypes, Full, FullAll, WellTyped, AllOf]

/-- C81, what is left: a triple read as a pair silently loses its last item. -/
theorem C81_longer_tuple_violates : ¬ C81_mismatch_claim := by
  intro h
  have := h (.tup [.i32, .i32]) ⟨.tuple [.int, .int, .long], .tup [.int 1, .int 2, .long 3]⟩
    ((1 : BitVec 32), (2 : BitVec 32), ()) rfl (by simp [WellTyped, Pointwise]) rfl
  simp [RTy.stype, RTy.stypes] at this

/-- C81, what is left: an empty collection of longs is an empty `Vec<i32>`. -/
theorem C81_empty_violates : ¬ C81_mismatch_claim := by
  intro h
  have := h (.vec .i32) ⟨.coll .long, .coll .long []⟩ ([] : List (BitVec 32)) rfl (by simp [WellTyped, AllOf]) rfl
  simp [RTy.stype] at this

/-- C81: options can be made into constants and extracted, but such a constant has no byte form: storing it is an error. -/
theorem C81_option_not_storable {G B : Type} [DecidableEq G] (pc : PointCodec G) (bc : BoxCodec B) (t : RTy)
    (x : (RTy.opt t).Val G B) : ((RTy.opt t).toConst x).ser pc bc = .err := by
  have hv : (((RTy.opt t).toConst x).v).ser pc bc = .err := by
    cases x with
    | none => exact (C14_option_refused pc bc .unit).1
    | some y => exact (C14_option_refused pc bc _).2
  unfold Constant.ser
  split
  · rfl
  · rw [hv]; rfl

example : ((RTy.opt .i32).toConst (G := Fin 3) (B := Empty) (some (5 : BitVec 32))).v = .some (.int 5) := rfl

/-- C81: a public key is found in a constant exactly if the constant was made from that key. -/
theorem C81_dlog {G B : Type} (v : Literal G B) (h : G) : RTy.dlogOf v = some h ↔ v = .sigmaProp (.dlog h) := by
  constructor
  · intro e
    unfold RTy.dlogOf at e
    split at e
    · rw [← Option.some.inj e]
    · exact absurd e (by simp)
  · rintro rfl
    rfl

example : RTy.dlogOf (.sigmaProp (.dlog 2) : Literal (Fin 3) Empty) = some 2 := rfl

/-- C81: a storable value keeps its type and content when a script computes with it: the constant made of the script's value is the
constant made of the Rust value. -/
theorem C81_value {G B : Type} (bwf : B → Prop) (t : RTy) (hc : t.conv = true) (x : t.Val G B) (hs : Storable bwf t x) :
    (Value.ofLiteral (t.toConst x).v).toConstant = some (t.toConst x) := by
  have h := (C81_typed (fun _ => true) bwf t hc x hs).2.2
  exact toConstant_ofLiteral _ _ h

example : (Value.ofLiteral (c81Type.toConst c81Val).v).toConstant = some (c81Type.toConst c81Val) := by
  refine C81_value (fun _ => True) c81Type rfl c81Val ?_
  simp [c81Type, c81Val, Storable, StorableAll]
  exact ⟨⟨by decide, fun x hx => by cases hx with | head => decide | tail _ h => cases h⟩, by decide⟩

/-- C81, what is left: an option loses its type when it is turned into a constant again (`mir/constant.rs:327-334`), so `C81_value` does
not extend to options; the empty option is an error. -/
theorem C81_option_value_violates :
    (Value.ofLiteral ((RTy.opt .i32).toConst (G := Fin 3) (B := Empty) (some (5 : BitVec 32))).v).toConstant =
      some ⟨.int, .some (.int 5)⟩ ∧
    ((RTy.opt .i32).toConst (G := Fin 3) (B := Empty) (some (5 : BitVec 32))).tpe = .option .int ∧
    (Value.ofLiteral ((RTy.opt .i32).toConst (G := Fin 3) (B := Empty) none).v).toConstant = none := by
  refine ⟨?_, ?_, ?_⟩ <;> rfl

end Verif
