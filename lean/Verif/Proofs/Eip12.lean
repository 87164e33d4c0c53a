import Verif.Proofs.JsonFormTx

set_option linter.unusedSimpArgs false
set_option linter.unusedVariables false

/-!
# EIP-12: writers succeed together, and their numbers are small
-/

namespace Verif
open Spec Json

section
variable {G B T : Type}

theorem numbersBelowAll_iff (n : Nat) : ∀ l : List Json, NumbersBelowAll n l ↔ ∀ j ∈ l, NumbersBelow n j
  | [] => by simp [NumbersBelowAll]
  | j :: l => by simp [NumbersBelowAll, numbersBelowAll_iff n l]

theorem numbersBelowFields_iff (n : Nat) : ∀ l : List (Text × Json), NumbersBelowFields n l ↔ ∀ p ∈ l, NumbersBelow n p.2
  | [] => by simp [NumbersBelowFields]
  | j :: l => by simp [NumbersBelowFields, numbersBelowFields_iff n l]

theorem numbersBelow_arr (n : Nat) (l : List Json) : NumbersBelow n (.arr l) ↔ ∀ j ∈ l, NumbersBelow n j := by
  rw [NumbersBelow, numbersBelowAll_iff]

theorem numbersBelow_obj (n : Nat) (l : List (Text × Json)) : NumbersBelow n (.obj l) ↔ ∀ p ∈ l, NumbersBelow n p.2 := by
  rw [NumbersBelow, numbersBelowFields_iff]

theorem numbersBelow_fields (n : Nat) (l : List (String × Json)) : NumbersBelow n (fields l) ↔ ∀ p ∈ l, NumbersBelow n p.2 := by
  unfold fields
  rw [numbersBelow_obj]
  exact List.forall_mem_map

theorem numbersBelow_hex (n : Nat) (b : Bytes) : NumbersBelow n (hex b) := by simp [hex, NumbersBelow]

theorem numbersBelow_asText (n k : Nat) : NumbersBelow n (asText k) := by simp [asText, NumbersBelow]

theorem numbersBelow_asNumber (n k : Nat) : NumbersBelow n (asNumber k) ↔ k < n := by simp [asNumber, NumbersBelow]

theorem numbersBelow_forall₂ {α : Type} {n : Nat} {P : α → Json → Prop} {l : List α} {js : List Json} (h : List.Forall₂ P l js)
    (hp : ∀ a j, P a j → NumbersBelow n j) : NumbersBelow n (.arr js) := by
  rw [numbersBelow_arr]
  induction h with
  | nil => simp
  | cons h1 _ ih =>
    intro j hj
    rcases List.mem_cons.1 hj with rfl | hj
    · exact hp _ _ h1
    · exact ih j hj

theorem numbersBelow_token (n : Nat) (t : Token) : NumbersBelow n (tokenForm asText t) := by
  unfold tokenForm
  rw [numbersBelow_fields]
  simp [numbersBelow_hex, numbersBelow_asText]

theorem numbersBelow_tokens (n : Nat) (l : List Token) : NumbersBelow n (.arr (l.map (tokenForm asText))) := by
  rw [numbersBelow_arr]
  intro j hj
  obtain ⟨t, _, rfl⟩ := List.mem_map.1 hj
  exact numbersBelow_token n t

variable [DecidableEq G]

theorem numbersBelow_regs (n : Nat) (E : Sers G B T) {rs : Regs G B} {o : List (Text × Json)} (h : RegForm E rs o) :
    NumbersBelow n (.obj o) := by
  obtain ⟨bs, _, _, hp⟩ := h
  rw [numbersBelow_obj]
  intro p hm
  obtain ⟨b, _, e⟩ := List.mem_map.1 (List.of_mem_zip (hp.mem_iff.1 hm)).2
  rw [← e]
  exact numbersBelow_hex n b

theorem numbersBelow_cand (E : Sers G B T) {c : BoxCand G B T} {j : Json} (h : CandForm asText E c j) : NumbersBelow (2 ^ 32) j := by
  obtain ⟨tree, regs, _, hr, rfl⟩ := h
  rw [numbersBelow_fields]
  simp only [List.mem_cons, List.not_mem_nil, or_false, forall_eq_or_imp, forall_eq]
  exact ⟨numbersBelow_asText _ _, numbersBelow_hex _ _, numbersBelow_tokens _ _, numbersBelow_regs _ E hr,
    (numbersBelow_asNumber _ _).2 c.height.isLt⟩

theorem numbersBelow_box (E : Sers G B T) {b : EBox G B T} {j : Json} (h : BoxForm asText E b j) : NumbersBelow (2 ^ 32) j := by
  obtain ⟨tree, regs, _, hr, rfl⟩ := h
  rw [numbersBelow_fields]
  simp only [List.mem_cons, List.not_mem_nil, or_false, forall_eq_or_imp, forall_eq]
  have := b.index.isLt
  exact ⟨numbersBelow_hex _ _, numbersBelow_asText _ _, numbersBelow_hex _ _, numbersBelow_tokens _ _, numbersBelow_regs _ E hr,
    (numbersBelow_asNumber _ _).2 b.height.isLt, numbersBelow_hex _ _, (numbersBelow_asNumber _ _).2 (by omega)⟩

theorem numbersBelow_ext (n : Nat) (E : Sers G B T) {m : Extension G B} {j : Json} (h : ExtForm E m j) : NumbersBelow n j := by
  obtain ⟨o, rfl, h⟩ := h
  rw [numbersBelow_obj]
  induction h with
  | nil => simp
  | cons h1 _ ih =>
    intro p hp
    rcases List.mem_cons.1 hp with rfl | hp
    · obtain ⟨b, _, e⟩ := h1
      rw [e]
      exact numbersBelow_hex n b
    · exact ih p hp

theorem numbersBelow_data (n : Nat) (d : Option (List Bytes)) : NumbersBelow n (dataForm d) := by
  unfold dataForm
  rw [numbersBelow_arr]
  intro j hj
  obtain ⟨b, _, rfl⟩ := List.mem_map.1 hj
  rw [numbersBelow_fields]
  simp [numbersBelow_hex]

theorem numbersBelow_tx (E : Sers G B T) {t : Tx G B T} {j : Json} (h : TxForm asText E t j) : NumbersBelow (2 ^ 32) j := by
  obtain ⟨is, os, h1, h2, rfl⟩ := h
  rw [numbersBelow_fields]
  simp only [List.mem_cons, List.not_mem_nil, or_false, forall_eq_or_imp, forall_eq]
  refine ⟨numbersBelow_hex _ _, numbersBelow_forall₂ h1 ?_, numbersBelow_data _ _, numbersBelow_forall₂ h2 fun b j hb => numbersBelow_box E hb⟩
  rintro i j ⟨e, he, rfl⟩
  rw [numbersBelow_fields]
  simp only [List.mem_cons, List.not_mem_nil, or_false, forall_eq_or_imp, forall_eq]
  refine ⟨numbersBelow_hex _ _, ?_⟩
  rw [numbersBelow_fields]
  simp only [List.mem_cons, List.not_mem_nil, or_false, forall_eq_or_imp, forall_eq]
  exact ⟨numbersBelow_hex _ _, numbersBelow_ext _ E he⟩

theorem numbersBelow_unsigned (E : Sers G B T) {u : UnsignedTransaction G B T} {j : Json} (h : UnsignedTxForm asText E u j) :
    NumbersBelow (2 ^ 32) j := by
  obtain ⟨is, os, h1, h2, rfl⟩ := h
  rw [numbersBelow_fields]
  simp only [List.mem_cons, List.not_mem_nil, or_false, forall_eq_or_imp, forall_eq]
  refine ⟨numbersBelow_forall₂ h1 ?_, numbersBelow_data _ _, numbersBelow_forall₂ h2 fun b j hb => numbersBelow_cand E hb⟩
  rintro i j ⟨e, he, rfl⟩
  rw [numbersBelow_fields]
  simp only [List.mem_cons, List.not_mem_nil, or_false, forall_eq_or_imp, forall_eq]
  exact ⟨numbersBelow_hex _ _, numbersBelow_ext _ E he⟩

/-! ## Both writers succeed or fail together -/

theorem candFieldsEip12_ok (E : Sers G B T) {ord : List (Text × Json) → List (Text × Json)} {c : BoxCand G B T}
    {o : List (Text × Json)} (h : writeCandFields E ord c = .ok o) : ∃ o', writeCandFieldsEip12 E ord c = .ok o' := by
  unfold writeCandFields at h
  obtain ⟨tree, h1, h⟩ := json_bind_ok.1 h
  obtain ⟨regs, h2, h⟩ := json_bind_ok.1 h
  unfold writeCandFieldsEip12
  rw [h1, Outcome.bind_ok, h2, Outcome.bind_ok]
  exact ⟨_, rfl⟩

theorem candEip12_ok (E : Sers G B T) {ord : List (Text × Json) → List (Text × Json)} {c : BoxCand G B T} {j : Json}
    (h : writeCand E ord c = .ok j) : ∃ j', writeCandEip12 E ord c = .ok j' := by
  unfold writeCand at h
  obtain ⟨o, h1, h⟩ := json_bind_ok.1 h
  obtain ⟨o', h2⟩ := candFieldsEip12_ok E h1
  unfold writeCandEip12
  rw [h2, Outcome.bind_ok]
  exact ⟨_, rfl⟩

theorem boxEip12_ok (E : Sers G B T) {ord : List (Text × Json) → List (Text × Json)} {b : EBox G B T} {j : Json}
    (h : writeBox E ord b = .ok j) : ∃ j', writeBoxEip12 E ord b = .ok j' := by
  unfold writeBox at h
  obtain ⟨o, h1, h⟩ := json_bind_ok.1 h
  obtain ⟨o', h2⟩ := candFieldsEip12_ok E h1
  unfold writeBoxEip12
  rw [h2, Outcome.bind_ok]
  exact ⟨_, rfl⟩

omit [DecidableEq G] in
theorem writeMany_mono {α : Type} {f g : α → Outcome Json} (h : ∀ a j, f a = .ok j → ∃ j', g a = .ok j') : ∀ {l : List α} {js : List Json},
    writeMany f l = .ok js → ∃ js', writeMany g l = .ok js'
  | [], js, _ => ⟨[], rfl⟩
  | a :: l, js, hf => by
    rw [writeMany] at hf
    obtain ⟨j, h1, hf⟩ := json_bind_ok.1 hf
    obtain ⟨js', h2, hf⟩ := json_bind_ok.1 hf
    obtain ⟨j', e1⟩ := h a j h1
    obtain ⟨l', e2⟩ := writeMany_mono h h2
    exact ⟨j' :: l', by rw [writeMany, e1, Outcome.bind_ok, e2, Outcome.bind_ok]; rfl⟩

theorem txEip12_ok (E : Sers G B T) {ord : List (Text × Json) → List (Text × Json)} {t : Tx G B T} {j : Json}
    (h : writeTx E ord t = .ok j) : ∃ j', writeTxEip12 E ord t = .ok j' := by
  unfold writeTx at h
  obtain ⟨is, h1, h⟩ := json_bind_ok.1 h
  obtain ⟨os, h2, h⟩ := json_bind_ok.1 h
  obtain ⟨os', h3⟩ := writeMany_mono (fun b j hb => boxEip12_ok E hb) h2
  unfold writeTxEip12
  rw [h1, Outcome.bind_ok, h3, Outcome.bind_ok]
  exact ⟨_, rfl⟩

theorem unsignedEip12_ok (E : Sers G B T) {ord : List (Text × Json) → List (Text × Json)} {u : UnsignedTransaction G B T} {j : Json}
    (h : writeUnsignedTx E ord u = .ok j) : ∃ j', writeUnsignedTxEip12 E ord u = .ok j' := by
  unfold writeUnsignedTx at h
  obtain ⟨is, h1, h⟩ := json_bind_ok.1 h
  obtain ⟨os, h2, h⟩ := json_bind_ok.1 h
  obtain ⟨os', h3⟩ := writeMany_mono (fun b j hb => candEip12_ok E hb) h2
  unfold writeUnsignedTxEip12
  rw [h1, Outcome.bind_ok, h3, Outcome.bind_ok]
  exact ⟨_, rfl⟩

end
end Verif
