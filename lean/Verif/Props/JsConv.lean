import Verif.Proofs.JsConv

set_option linter.unusedSimpArgs false
set_option linter.unusedVariables false

/-!
# C101: constants from and to JavaScript values
-/

namespace Verif
open Spec JsConv

section
variable {G B : Type}

/-- C101, partial (numbers that are not 32-bit integers and arrays of mixed elements are accepted too, see the violations): a
JavaScript value is read as the constant it stands for, and is refused when it stands for none. -/
theorem C101_read_partial (j : Js) (c : Constant G B) (hw : WholeNumbers j) (hu : Uniform j) :
    fromJs j = .ok c ↔ JsForm j c.tpe c.v := by
  rw [← fromJs_form j c.tpe c.v]
  exact ⟨fun h => ⟨h, hw, hu⟩, fun h => h.1⟩

example : (fromJs (.arr [.str tupleToken, .num (.fin 3 0), .str ['-', '7']]) : Outcome (Constant Unit Unit)) =
    .ok ⟨.tuple [.int, .long], .tup [.int 3, .long (-7)]⟩ := by
  rw [C101_read_partial]
  · rw [JsForm, JsFormTuple]
    refine ⟨rfl, by decide, by decide, ?_⟩
    rw [JsFormEach, JsFormEach, JsFormEach, JsForm, JsForm]
    refine ⟨numIs_int 3, ⟨by decide, by decide, ['7'], by decide, by decide, Or.inr ⟨rfl, by decide⟩⟩, trivial⟩
  · simp [WholeNumbers, WholeNumbersAll]
    exact ⟨3, by decide, by decide, numIs_int 3⟩
  · rw [Uniform]
    refine Or.inl ⟨rfl, ?_⟩
    simp [UniformAll, Uniform]

/-- C101: whatever stands for a constant is read as that constant; no assumption is needed. -/
theorem C101_accepts (j : Js) (t : SType) (v : Literal G B) (h : JsForm j t v) : fromJs j = .ok ⟨t, v⟩ :=
  ((fromJs_form j t v).2 h).1

example : (fromJs (.arr [.str ['5'], .str ['+', '6']]) : Outcome (Constant Unit Unit)) = .ok ⟨.coll .long, .coll .long [.long 5, .long 6]⟩ := by
  apply C101_accepts
  rw [JsForm]
  refine ⟨rfl, by decide, ?_⟩
  rw [JsFormAll, JsFormAll, JsFormAll, JsForm, JsForm]
  exact ⟨⟨by decide, by decide, ['5'], by decide, by decide, Or.inl ⟨Or.inl rfl, by decide⟩⟩,
    ⟨by decide, by decide, ['6'], by decide, by decide, Or.inl ⟨Or.inr rfl, by decide⟩⟩, trivial⟩

/-- C101: a JavaScript value stands for one constant at most. -/
theorem C101_unambiguous (j : Js) (t t' : SType) (v v' : Literal G B) (h : JsForm j t v) (h' : JsForm j t' v') : t = t' ∧ v = v' := by
  have e := (C101_accepts j t v h).symm.trans (C101_accepts j t' v' h')
  cases e
  exact ⟨rfl, rfl⟩

example : JsForm (.num (.fin 5 (-1) : JsNum)) .int (.int 2 : Literal Unit Unit) → False := by
  rw [JsForm]
  unfold NumIs
  decide

/-- C101, partial (mixed arrays give constants that are not well typed): the constant read has the type of its value. -/
theorem C101_typed_partial (bwf : B → Prop) (j : Js) (c : Constant G B) (h : fromJs j = .ok c) (hw : WholeNumbers j) (hu : Uniform j)
    (hs : JsSmall j) : WellTyped bwf c.v c.tpe :=
  jsForm_typed bwf j c.tpe c.v ((C101_read_partial j c hw hu).1 h) hs

example : WellTyped (fun _ : Unit => True) (.collByte [1, 2] : Literal Unit Unit) (.coll .byte) :=
  C101_typed_partial _ (.bytes [1, 2]) ⟨.coll .byte, .collByte [1, 2]⟩ (by simp [fromJs]) (by simp [WholeNumbers])
    (by simp [Uniform]) (by simp [JsSmall])

/-- C101: the type of the constant follows from the JavaScript value, arrays going by their first element. -/
theorem C101_type (j : Js) (c : Constant G B) (h : fromJs j = .ok c) : c.tpe = suggested j := fromJs_tpe j c h

example (c : Constant Unit Unit) (h : fromJs (.arr [.bytes [1], .bytes []]) = .ok c) : c.tpe = .coll (.coll .byte) := by
  rw [C101_type _ c h, suggested, suggested]
  intro s h; cases h

/-- C101: which constants can be shown as JavaScript values: those made of Boolean, Byte, Short, Int, Long, BigInt, collections and
tuples.  Showing never panics. -/
theorem C101_shown (bwf : B → Prop) (c : Constant G B) (hw : WellTyped bwf c.v c.tpe) (hn : NoEmpty c.v) :
    ((∃ j, toJs c.v c.tpe = .ok j) ↔ JsShown c.tpe = true) ∧ toJs c.v c.tpe ≠ .panic :=
  ⟨toJs_shown bwf c.v c.tpe hw hn, toJs_not_panic c.v c.tpe⟩

example : ∃ j, toJs (.tup [.bool true, .coll .short [.short 7]] : Literal Unit Unit) (.tuple [.bool, .coll .short]) = .ok j :=
  (C101_shown (fun _ => True) ⟨.tuple [.bool, .coll .short], .tup [.bool true, .coll .short [.short 7]]⟩
    (by simp [WellTyped, Pointwise, AllOf]) (by simp [NoEmpty, NoEmptyAll])).1.2 (by simp [JsShown, JsShownAll])

/-- C101, partial (Boolean, Byte, Short, tuples and empty collections do not survive, see the violations): what is shown is read
back as the same constant. -/
theorem C101_round_trip_partial (bwf : B → Prop) (c : Constant G B) (hw : WellTyped bwf c.v c.tpe) (hn : NoEmpty c.v)
    (hs : JsSimple c.tpe = true) : ∃ j, toJs c.v c.tpe = .ok j ∧ JsForm j c.tpe c.v ∧ fromJs j = .ok c := by
  obtain ⟨j, h1, h2⟩ := toJs_form bwf c.v c.tpe hw hn hs
  exact ⟨j, h1, h2, C101_accepts j _ _ h2⟩

example : ∃ j, toJs (.coll (.coll .long) [.coll .long [.long 1, .long (-1)]] : Literal Unit Unit) (.coll (.coll .long)) = .ok j ∧
    fromJs j = .ok (⟨.coll (.coll .long), .coll (.coll .long) [.coll .long [.long 1, .long (-1)]]⟩ : Constant Unit Unit) := by
  obtain ⟨j, h1, _, h3⟩ := C101_round_trip_partial (fun _ => True)
    (⟨.coll (.coll .long), .coll (.coll .long) [.coll .long [.long 1, .long (-1)]]⟩ : Constant Unit Unit)
    (by simp [WellTyped, AllOf]) (by simp [NoEmpty, NoEmptyAll]) (by simp [JsSimple])
  exact ⟨j, h1, h3⟩

/-- C101: `array_as_tuple` of the forms of the items is the form of the tuple. -/
theorem C101_tuple (l : List Js) (ts : List SType) (vs : List (Literal G B)) (h : JsFormEach l ts vs) (h1 : 2 ≤ l.length)
    (h2 : l.length ≤ 255) : fromJs (arrayAsTuple l) = .ok ⟨.tuple ts, .tup vs⟩ := by
  apply C101_accepts
  rw [arrayAsTuple, JsForm, JsFormTuple]
  exact ⟨rfl, h1, h2, h⟩

example : (fromJs (arrayAsTuple [.big 3, .bytes [9]]) : Outcome (Constant Unit Unit)) =
    .ok ⟨.tuple [.bigInt, .coll .byte], .tup [.bigInt 3, .collByte [9]]⟩ :=
  C101_tuple _ _ _ (by simp [JsFormEach, JsForm]) (by decide) (by decide)

/-! ## Violations -/

/-- C101, violation: a pair of integers is shown as an array without the marker and read back as a collection. -/
theorem C101_tuple_violates (a b : BitVec 32) :
    ∃ j, toJs (.tup [.int a, .int b] : Literal G B) (.tuple [.int, .int]) = .ok j ∧
      fromJs j = .ok (⟨.coll .int, .coll .int [.int a, .int b]⟩ : Constant G B) := by
  refine ⟨.arr [jsInt a.toInt, jsInt b.toInt], by simp [toJs, toJsTuple], ?_⟩
  apply C101_accepts
  rw [JsForm]
  refine ⟨rfl, by simp, ?_⟩
  simp [JsFormAll, JsForm, jsInt, numIs_int]

example : ∃ j, toJs (.tup [.int 1, .int 2] : Literal Unit Unit) (.tuple [.int, .int]) = .ok j ∧
    fromJs j = .ok (⟨.coll .int, .coll .int [.int 1, .int 2]⟩ : Constant Unit Unit) := C101_tuple_violates 1 2

/-- C101, violation: a pair of an Int and a Long is shown and read back as a collection of Int with a Long in it, which is no
constant of any type. -/
theorem C101_mixed_violates (a : BitVec 32) (b : BitVec 64) (bwf : B → Prop) :
    ∃ j, toJs (.tup [.int a, .long b] : Literal G B) (.tuple [.int, .long]) = .ok j ∧
      ∃ c : Constant G B, fromJs j = .ok c ∧ c.tpe = .coll .int ∧ ∀ t, ¬ WellTyped bwf c.v t := by
  refine ⟨.arr [jsInt a.toInt, .str (Json.bigText b.toInt)], by simp [toJs, toJsTuple], ?_⟩
  have h1 : (fromJs (jsInt a.toInt) : Outcome (Constant G B)) = .ok ⟨.int, .int a⟩ := by
    apply C101_accepts
    rw [jsInt, JsForm]
    exact numIs_int _
  have h2 : (fromJs (.str (Json.bigText b.toInt)) : Outcome (Constant G B)) = .ok ⟨.long, .long b⟩ := by
    apply C101_accepts
    rw [JsForm]
    exact longText_bigText b
  refine ⟨⟨.coll .int, .coll .int [.int a, .long b]⟩, ?_, rfl, ?_⟩
  · rw [fromJs_arr_other _ (by intro s r h; cases h)]
    simp only [fromJsAll, h1, h2, Outcome.bind_ok, Outcome.pure_eq, collConst, List.map_cons, List.map_nil]
  · intro t h
    cases t <;> simp [WellTyped, AllOf] at h

example (bwf : Unit → Prop) : ∃ j, toJs (.tup [.int 1, .long 2] : Literal Unit Unit) (.tuple [.int, .long]) = .ok j ∧
    ∃ c : Constant Unit Unit, fromJs j = .ok c ∧ c.tpe = .coll .int ∧ ∀ t, ¬ WellTyped bwf c.v t := C101_mixed_violates 1 2 bwf

/-- C101, violation: a pair of a Long and an Int is shown and not read back at all. -/
theorem C101_long_first_violates (a : BitVec 64) (b : BitVec 32) :
    ∃ j, toJs (.tup [.long a, .int b] : Literal G B) (.tuple [.long, .int]) = .ok j ∧ (fromJs j : Outcome (Constant G B)) = .err := by
  refine ⟨.arr [.str (Json.bigText a.toInt), jsInt b.toInt], by simp [toJs, toJsTuple], ?_⟩
  have hp : parseI64 (Json.bigText a.toInt) = some a := (parseI64_iff _ a).2 (longText_bigText a)
  rw [fromJs_arr_str, if_neg]
  · simp [collLong, hp, jsInt]
  · intro e
    rw [e] at hp
    revert hp
    have hz : parseI64 tupleToken = none := by decide
    rw [hz]
    intro h; cases h

example : ∃ j, toJs (.tup [.long 5, .int 6] : Literal Unit Unit) (.tuple [.long, .int]) = .ok j ∧
    (fromJs j : Outcome (Constant Unit Unit)) = .err := C101_long_first_violates 5 6

/-- C101, violation: Boolean is shown and not read back, Byte and Short are read back as Int. -/
theorem C101_small_types_violates (b : Bool) (x : BitVec 8) (y : BitVec 16) :
    (∃ j, toJs (.bool b : Literal G B) .bool = .ok j ∧ (fromJs j : Outcome (Constant G B)) = .err) ∧
    (∃ j, toJs (.byte x : Literal G B) .byte = .ok j ∧ (fromJs j : Outcome (Constant G B)) = .ok ⟨.int, .int (x.signExtend 32)⟩) ∧
    (∃ j, toJs (.short y : Literal G B) .short = .ok j ∧ (fromJs j : Outcome (Constant G B)) = .ok ⟨.int, .int (y.signExtend 32)⟩) := by
  refine ⟨⟨.bool b, by simp [toJs], by simp [fromJs]⟩, ⟨jsInt x.toInt, by simp [toJs], ?_⟩, ⟨jsInt y.toInt, by simp [toJs], ?_⟩⟩
  · apply C101_accepts
    rw [jsInt, JsForm, BitVec.toInt_signExtend_of_le (by decide)]
    exact numIs_int _
  · apply C101_accepts
    rw [jsInt, JsForm, BitVec.toInt_signExtend_of_le (by decide)]
    exact numIs_int _

example : ∃ j, toJs (.byte 255 : Literal Unit Unit) .byte = .ok j ∧
    (fromJs j : Outcome (Constant Unit Unit)) = .ok ⟨.int, .int ((255#8).signExtend 32)⟩ := (C101_small_types_violates true 255 0).2.1

/-- C101, violation: an empty array panics, so an empty collection that is shown cannot be read back; a marked array of fewer than
two items that can be read panics too. -/
theorem C101_empty_violates (e e' : SType) (j : Js) (c : Constant G B) (hj : fromJs j = .ok c) :
    toJs (.coll e [] : Literal G B) (.coll e') = .ok (.arr []) ∧ (fromJs (.arr []) : Outcome (Constant G B)) = .panic ∧
    (fromJs (arrayAsTuple []) : Outcome (Constant G B)) = .panic ∧ (fromJs (arrayAsTuple [j]) : Outcome (Constant G B)) = .panic := by
  refine ⟨by simp [toJs, toJsColl], ?_, ?_, ?_⟩
  · rw [fromJs_arr_other _ (by intro s r; simp), fromJsAll, Outcome.bind_ok]
    rfl
  · rw [arrayAsTuple, fromJs_arr_str, if_pos rfl, fromJsAll, Outcome.bind_ok]
    rfl
  · rw [arrayAsTuple, fromJs_arr_str, if_pos rfl, (fromJsAll_cons j [] [c]).2 ⟨c, [], rfl, hj, by rw [fromJsAll]⟩, Outcome.bind_ok]
    rfl

example : (fromJs (arrayAsTuple [.bytes [1]]) : Outcome (Constant Unit Unit)) = .panic :=
  (C101_empty_violates .int .int (.bytes [1]) ⟨.coll .byte, .collByte [1]⟩ (by simp [fromJs])).2.2.2

/-- C101, violation: every number is accepted as an Int: fractions are cut towards zero, numbers out of range become the nearest
bound, not a number becomes zero. -/
theorem C101_number_violates :
    (∀ n : JsNum, ∃ v, (fromJs (.num n) : Outcome (Constant G B)) = .ok ⟨.int, .int v⟩) ∧
    (fromJs (.num (.fin 3 (-1))) : Outcome (Constant G B)) = .ok ⟨.int, .int 1⟩ ∧
    (fromJs (.num (.fin (-3) (-1))) : Outcome (Constant G B)) = .ok ⟨.int, .int (-1)⟩ ∧
    (∀ i : Int, 2 ^ 31 ≤ i → (fromJs (.num (.fin i 0)) : Outcome (Constant G B)) = .ok ⟨.int, .int (2 ^ 31 - 1)⟩) ∧
    (∀ i : Int, i < -(2 ^ 31) → (fromJs (.num (.fin i 0)) : Outcome (Constant G B)) = .ok ⟨.int, .int (2 ^ 31)⟩) ∧
    (fromJs (.num (.inf false)) : Outcome (Constant G B)) = .ok ⟨.int, .int (2 ^ 31 - 1)⟩ ∧
    (fromJs (.num (.inf true)) : Outcome (Constant G B)) = .ok ⟨.int, .int (2 ^ 31)⟩ ∧
    (fromJs (.num .nan) : Outcome (Constant G B)) = .ok ⟨.int, .int 0⟩ := by
  refine ⟨fun n => ⟨_, by rw [fromJs]⟩, ?_, ?_, ?_, ?_, ?_, ?_, ?_⟩
  · rw [fromJs, show numToI32 (.fin 3 (-1)) = 1 from by decide]
  · rw [fromJs, show numToI32 (.fin (-3) (-1)) = -1 from by decide]
  · intro i hi
    rw [fromJs]
    have : numToI32 (.fin i 0) = 2 ^ 31 - 1 := by
      unfold numToI32
      simp only [Int.le_refl, if_true, Int.toNat_zero, Int.pow_zero, Int.mul_one]
      rw [show max (-(2 ^ 31)) (min (2 ^ 31 - 1) i) = (2 ^ 31 - 1 : Int) by omega]
      decide
    rw [this]
  · intro i hi
    rw [fromJs]
    have : numToI32 (.fin i 0) = 2 ^ 31 := by
      unfold numToI32
      simp only [Int.le_refl, if_true, Int.toNat_zero, Int.pow_zero, Int.mul_one]
      rw [show max (-(2 ^ 31)) (min (2 ^ 31 - 1) i) = (-(2 ^ 31) : Int) by omega]
      decide
    rw [this]
  · rw [fromJs, show numToI32 (.inf false) = 2 ^ 31 - 1 from by decide]
  · rw [fromJs, show numToI32 (.inf true) = 2 ^ 31 from by decide]
  · rw [fromJs]
    rfl

example : (fromJs (.num (.fin (2 ^ 40) 0)) : Outcome (Constant Unit Unit)) = .ok ⟨.int, .int (2 ^ 31 - 1)⟩ :=
  C101_number_violates.2.2.2.1 _ (by decide)

end
end Verif
