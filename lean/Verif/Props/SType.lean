import Verif.Proofs.SType

/-!
# C13 – type codes identify types
-/

namespace Verif
open Spec SType

/-- C13: every type without a function inside, of any nesting, is written, and reading it back in any stream gives the
same type and leaves exactly the bytes that followed. -/
theorem C13_roundtrip (utf8 : Bytes → Bool) (t : SType) (hw : WfType utf8 t) (hf : NoFunc t) :
    ∃ bs, SType.ser t = some bs ∧ ∀ rest, SType.parse utf8 (bs ++ rest) = some (t, rest) :=
  roundTrip utf8 t hw hf

/-- A nested type: `Coll[(Option[Coll[Int]], (Short, Short), T, Coll[Coll[Box]], (Byte, SigmaProp))]`. -/
def c13Example : SType :=
  .coll (.tuple [.option (.coll .int), .tuple [.short, .short], .typeVar [0x54], .coll (.coll .box),
    .tuple [.byte, .sigmaProp]])

example : WfType (fun _ => true) c13Example ∧ NoFunc c13Example ∧
    SType.ser c13Example = some [12, 96, 5, 52, 63, 3, 103, 1, 0x54, 12, 12, 99, 62, 8] := by
  refine ⟨?_, ?_, by decide⟩ <;> simp [c13Example, WfType, WfTypes, NoFunc, NoFuncs]

/-- C13: encodings are prefix-free; in particular distinct types have distinct encodings. -/
theorem C13_prefix_free (utf8 : Bytes → Bool) (t u : SType) (ht : WfType utf8 t) (hu : WfType utf8 u)
    (bt bu r r' : Bytes) (et : SType.ser t = some bt) (eu : SType.ser u = some bu) (e : bt ++ r = bu ++ r') :
    t = u ∧ r = r' := by
  have nf : ∀ (t : SType) b, SType.ser t = some b → NoFunc t := by
    intro t b h
    by_cases hn : NoFunc t
    · exact hn
    · rw [ser_func t hn] at h; cases h
  obtain ⟨b, hb, hp⟩ := roundTrip utf8 t ht (nf t bt et)
  obtain ⟨b', hb', hp'⟩ := roundTrip utf8 u hu (nf u bu eu)
  rw [et] at hb; rw [eu] at hb'
  simp only [Option.some.injEq] at hb hb'
  subst hb hb'
  have h := hp r
  rw [e, hp' r'] at h
  simp only [Option.some.injEq, Prod.mk.injEq] at h
  exact ⟨h.1.symm, h.2.symm⟩

/-- C13: a type is refused by the writer exactly when a function type occurs inside. -/
theorem C13_refused_iff (utf8 : Bytes → Bool) (t : SType) (hw : WfType utf8 t) :
    SType.ser t = none ↔ ¬ NoFunc t := by
  constructor
  · intro h hf
    obtain ⟨b, hb, _⟩ := roundTrip utf8 t hw hf
    rw [h] at hb; cases hb
  · exact ser_func t

example : SType.ser (.coll (.tuple [.int, .func [.int] .bool []])) = none := by decide

/-- C13: whatever the reader accepts is a well-formed type (tuples of 2..255 items, variables of 1..254 UTF-8 bytes)
without function types, and the reader removed a non-empty prefix of the input.  The reader is a total function, so it
terminates on every input. -/
theorem C13_parsed (utf8 : Bytes → Bool) (s r : Bytes) (t : SType) (h : SType.parse utf8 s = some (t, r)) :
    WfType utf8 t ∧ NoFunc t ∧ ∃ pre, s = pre ++ r ∧ pre ≠ [] := by
  obtain ⟨hw, hf⟩ := parsed_good utf8 s t r h
  refine ⟨hw, hf, ?_⟩
  cases s with
  | nil => rw [SType.parse_eq] at h; cases h
  | cons c s =>
    rw [parse_cons] at h
    obtain ⟨pre, rfl⟩ := prefixes_parseCode utf8 (prefixes_parse utf8) c _ _ _ h
    exact ⟨c :: pre, rfl, by simp⟩

example : SType.parse (fun _ => true) [96, 2, 4, 103, 1, 0x54, 9, 9] =
    some (.tuple [.int, .typeVar [0x54]], [9, 9]) := by decide +kernel

/-- C13: reading is a left inverse on everything the reader accepts: an accepted type can be written again, and reading
that gives the same type. -/
theorem C13_reparse (utf8 : Bytes → Bool) (s r : Bytes) (t : SType) (h : SType.parse utf8 s = some (t, r)) :
    ∃ bs, SType.ser t = some bs ∧ ∀ rest, SType.parse utf8 (bs ++ rest) = some (t, rest) := by
  obtain ⟨hw, hf⟩ := parsed_good utf8 s t r h
  exact roundTrip utf8 t hw hf

/-- Finding: the reader accepts more than one encoding of a type, so bytes → type → bytes is not the identity.
`(Short, Short)` is written as two bytes `63 3`, although the one-byte code 87 for it is read; `Coll[Byte]` in the long
form `12 2` is read too. -/
theorem C13_not_canonical :
    SType.parse (fun _ => true) [87] = some (.tuple [.short, .short], []) ∧
    SType.ser (.tuple [.short, .short]) = some [63, 3] ∧
    SType.parse (fun _ => true) [12, 2] = some (.coll .byte, []) ∧
    SType.ser (.coll .byte) = some [14] := by
  refine ⟨by decide +kernel, by decide, by decide +kernel, by decide⟩

end Verif
