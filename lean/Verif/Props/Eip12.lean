import Verif.Proofs.Eip12
import Verif.Props.JsonForm

set_option linter.unusedSimpArgs false
set_option linter.unusedVariables false

/-!
# C112: JSON for wallets and applications (EIP-12)
-/

namespace Verif
open Spec Json

/-- C112: a token is written with its amount as a text, and read back. -/
theorem C112_token (t : Token) : writeTokenEip12 t = tokenForm asText t ∧
    (t.1.length = 32 → t.2 < 2 ^ 64 → readToken (writeTokenEip12 t) = .ok t) := by
  refine ⟨writeTokenEip12_form t, fun h1 h2 => ?_⟩
  rw [writeTokenEip12_form]
  exact readToken_form asText_form h1 h2

/-- Non-trivial case: an amount that is no number of JavaScript. -/
example : (2 ^ 63 - 1 : Nat) < 2 ^ 64 ∧ asText (2 ^ 63 - 1) = lit "9223372036854775807" :=
  ⟨by decide, congrArg Json.str (by decide +kernel)⟩

section
variable {G B T : Type} [DecidableEq G]

/-- C112: a box is written in the form of EIP-12 and read back from it. -/
theorem C112_box (E : Sers G B T) (tp : Bytes → Option T) {bwf : B → Prop} {twf twf' : T → Prop} (h : GoodSers E bwf twf')
    (ht : TreeText E tp twf) (ord : List (Text × Json) → List (Text × Json)) (ho : IsOrder ord) (b : EBox G B T)
    (hb : JsonBox E bwf twf b) : ∃ j, writeBoxEip12 E ord b = .ok j ∧ BoxForm asText E b j ∧ readBox E tp j = .ok b := by
  obtain ⟨j, e, _⟩ := writeBox_rt E tp h ht ho b hb
  obtain ⟨j', e'⟩ := boxEip12_ok E e
  have hf := writeBoxEip12_form E ho e'
  exact ⟨j', e', hf, readBox_form E tp h ht asText_form hb hf⟩

/-- Non-trivial case: the box of the examples of C74. -/
example : ∃ j, writeBoxEip12 toySers id jsonExampleBox = .ok j ∧ readBox toySers toyTp j = .ok jsonExampleBox := by
  obtain ⟨j, h1, _, h2⟩ := C112_box toySers toyTp toySers_good toyTp_text id (fun l => List.Perm.refl l) jsonExampleBox jsonExample_good
  exact ⟨j, h1, h2⟩

/-- C112: so is a signed transaction. -/
theorem C112_transaction (E : Sers G B T) (tp : Bytes → Option T) {bwf : B → Prop} {twf twf' : T → Prop} (h : GoodSers E bwf twf')
    (ht : TreeText E tp twf) (ord : List (Text × Json) → List (Text × Json)) (ho : IsOrder ord) (t : Tx G B T)
    (hp : JsonParts E bwf twf t.inputs t.dataInputs t.cands) (hm : Tx.new E t.inputs t.dataInputs t.cands = .ok t) :
    ∃ j, writeTxEip12 E ord t = .ok j ∧ TxForm asText E t j ∧ readTx E tp j = .ok t := by
  obtain ⟨j, e, _⟩ := writeTx_rt E tp h ht ho t hp hm
  obtain ⟨j', e'⟩ := txEip12_ok E e
  have hf := writeTxEip12_form E ho e'
  exact ⟨j', e', hf, readTx_form E tp h ht asText_form t hp hm hf⟩

/-- Non-trivial case: the transaction of the examples of C11. -/
example : ∃ t j, t.inputs = exInputs ∧ writeTxEip12 toySers id t = .ok j ∧ readTx toySers toyTp j = .ok t := by
  obtain ⟨t, h0, h1, h2, _, h3⟩ := C11_constructor_total toySers _ _ toySers_good _ _ _ exParts_good
  obtain ⟨j, k1, _, k2⟩ := C112_transaction toySers toyTp toySers_good toyTp_text id (fun l => List.Perm.refl l) t
    (C75_good_tx toySers t h1) h1.made
  exact ⟨t, j, h2, k1, k2⟩

/-- C112: and an unsigned one. -/
theorem C112_unsigned_transaction (E : Sers G B T) (tp : Bytes → Option T) {bwf : B → Prop} {twf twf' : T → Prop}
    (h : GoodSers E bwf twf') (ht : TreeText E tp twf) (ord : List (Text × Json) → List (Text × Json)) (ho : IsOrder ord)
    (u : UnsignedTransaction G B T) (h1 : 1 ≤ u.inputs.length ∧ u.inputs.length ≤ 65535)
    (h2 : ∀ i ∈ u.inputs, i.boxId.length = 32 ∧ JsonExt E bwf i.extension) (h3 : GoodData u.dataInputs)
    (h4 : 1 ≤ u.cands.length ∧ u.cands.length ≤ 65535) (h5 : ∀ c ∈ u.cands, JsonCand E bwf twf c)
    (hm : UnsignedTransaction.new E u.inputs u.dataInputs u.cands = .ok u) :
    ∃ j, writeUnsignedTxEip12 E ord u = .ok j ∧ UnsignedTxForm asText E u j ∧ readUnsignedTx E tp j = .ok u := by
  obtain ⟨j, e, _⟩ := writeUnsignedTx_rt E tp h ht ho u h1 h2 h3 h4 h5 hm
  obtain ⟨j', e'⟩ := unsignedEip12_ok E e
  have hf := writeUnsignedTxEip12_form E ho e'
  exact ⟨j', e', hf, readUnsignedTx_form E tp h ht asText_form u h1 h2 h3 h4 h5 hm hf⟩

/-- Non-trivial case: a transaction with one input and one output. -/
example : ∃ u j, UnsignedTransaction.new toySers [⟨zeros32, []⟩] none [jsonExampleBox.toCand] = .ok u ∧
    writeUnsignedTxEip12 toySers id u = .ok j ∧ readUnsignedTx toySers toyTp j = .ok u := by
  obtain ⟨u, hu⟩ : ∃ u, UnsignedTransaction.new toySers [⟨zeros32, []⟩] none [jsonExampleBox.toCand] = .ok u := ⟨_, rfl⟩
  obtain ⟨e1, e2, e3⟩ : u.inputs = [⟨zeros32, []⟩] ∧ u.dataInputs = none ∧ u.cands = [jsonExampleBox.toCand] := by
    have h := hu
    unfold UnsignedTransaction.new at h
    obtain ⟨i, _, h⟩ := json_bind_ok.1 h
    cases h
    exact ⟨rfl, rfl, rfl⟩
  obtain ⟨j, k1, _, k2⟩ := C112_unsigned_transaction toySers toyTp toySers_good toyTp_text id (fun l => List.Perm.refl l) u
    (by rw [e1]; decide)
    (by
      intro i hi
      rw [e1] at hi
      rw [List.mem_singleton.1 hi]
      exact ⟨by decide, ⟨by unfold FMap.Ok; decide, by intro p hp; cases hp⟩⟩)
    (by rw [e2]; trivial) (by rw [e3]; decide) (by intro c hc; rw [e3] at hc; rw [List.mem_singleton.1 hc]; exact jsonExample_good.cand)
    (by rw [e1, e2, e3]; exact hu)
  exact ⟨u, j, hu, k1, k2⟩

/-- C112: every number in these values is a 32 bit one, so JavaScript represents all of them exactly. -/
theorem C112_numbers (E : Sers G B T) (ord : List (Text × Json) → List (Text × Json)) (ho : IsOrder ord) (j : Json) :
    (∀ t, j = writeTokenEip12 t → NumbersBelow (2 ^ 32) j) ∧ (∀ c, writeCandEip12 E ord c = .ok j → NumbersBelow (2 ^ 32) j) ∧
    (∀ b, writeBoxEip12 E ord b = .ok j → NumbersBelow (2 ^ 32) j) ∧ (∀ t, writeTxEip12 E ord t = .ok j → NumbersBelow (2 ^ 32) j) ∧
    (∀ u, writeUnsignedTxEip12 E ord u = .ok j → NumbersBelow (2 ^ 32) j) := by
  refine ⟨?_, fun c h => numbersBelow_cand E (writeCandEip12_form E ho h), fun b h => numbersBelow_box E (writeBoxEip12_form E ho h),
    fun t h => numbersBelow_tx E (writeTxEip12_form E ho h), fun u h => numbersBelow_unsigned E (writeUnsignedTxEip12_form E ho h)⟩
  rintro t rfl
  rw [writeTokenEip12_form]
  exact numbersBelow_token _ t

/-- The reason for EIP-12: the other form has numbers as large as the amounts in it. -/
theorem C112_plain (E : Sers G B T) (ord : List (Text × Json) → List (Text × Json)) (ho : IsOrder ord) (b : EBox G B T) (j : Json)
    (h : writeBox E ord b = .ok j) (n : Nat) (hn : NumbersBelow n j) : b.value < n ∧ ∀ t ∈ b.tokens.getD [], t.2 < n := by
  obtain ⟨tree, regs, _, _, rfl⟩ := writeBox_form E ho h
  rw [numbersBelow_fields] at hn
  simp only [List.mem_cons, List.not_mem_nil, or_false, forall_eq_or_imp, forall_eq] at hn
  refine ⟨(numbersBelow_asNumber _ _).1 hn.2.1, fun t ht => ?_⟩
  have := (numbersBelow_arr _ _).1 hn.2.2.2.1 _ (List.mem_map_of_mem ht)
  unfold tokenForm at this
  rw [numbersBelow_fields] at this
  simp only [List.mem_cons, List.not_mem_nil, or_false, forall_eq_or_imp, forall_eq] at this
  exact (numbersBelow_asNumber _ _).1 this.2

example : NumbersBelow 3 (.arr [asNumber 2, lit "7"]) ∧ ¬ NumbersBelow 3 (.arr [asNumber 3]) := by
  simp [NumbersBelow, NumbersBelowAll, asNumber, lit]

end
end Verif
