import Verif.Spec.JsonForm
import Verif.Proofs.JsonTx

set_option linter.unusedSimpArgs false
set_option linter.unusedVariables false

/-!
# The JSON forms, spelled out: proofs
-/

namespace Verif
open Spec Json

/-! ## Texts -/

theorem hexDigit_eq {n : Nat} (h : n < 16) : hexDigit n = "0123456789abcdef".toList.getD n '?' := by
  have : ∀ n : Fin 16, hexDigit n.val = "0123456789abcdef".toList.getD n.val '?' := by decide +kernel
  exact this ⟨n, h⟩

theorem hexEnc_eq (b : Bytes) : hexEnc b = hexText b := by
  induction b with
  | nil => rfl
  | cons x b ih =>
    have hx := x.isLt
    unfold hexText at ih ⊢
    rw [hexEnc, List.flatMap_cons, ← ih, hexDigit_eq (by omega), hexDigit_eq (Nat.mod_lt _ (by decide))]
    rfl

theorem strHex_eq (b : Bytes) : Json.str (hexEnc b) = hex b := by rw [hexEnc_eq]; rfl

theorem digitChar_eq {n : Nat} (h : n < 10) : digitChar n = Nat.digitChar n := by
  have : ∀ n : Fin 10, digitChar n.val = Nat.digitChar n.val := by decide +kernel
  exact this ⟨n, h⟩

theorem decimal_toDigits (n : Nat) : decimal n = Nat.toDigits 10 n := by
  induction n using decimal.induct with
  | case1 n h => rw [decimal, if_pos h, Nat.toDigits_of_lt_base h, digitChar_eq h]
  | case2 n h ih =>
    rw [decimal, if_neg h, ih, Nat.toDigits_of_base_le (b := 10) (n := n) (by decide) (by omega), digitChar_eq (Nat.mod_lt _ (by decide))]

theorem decimal_eq (n : Nat) : decimal n = (toString n).toList := by
  rw [decimal_toDigits]
  show _ = (Nat.repr n).toList
  unfold Nat.repr
  simp

theorem bigText_eq (i : Int) : bigText i = (toString i).toList := by
  unfold bigText
  cases i with
  | ofNat n => 
    rw [if_neg (by simp)]
    show decimal n = (Nat.repr n).toList
    exact decimal_eq n
  | negSucc n =>
    rw [if_pos (by simp)]
    rw [decimal_eq]
    show _ = (("-" : String) ++ Nat.repr (n + 1)).toList
    simp

theorem writePos_eq (p : Sigma.Position) : Json.str (writePos p) = positionForm p := by
  unfold positionForm
  congr 1
  induction p with
  | nil => rfl
  | cons n p ih =>
    cases p with
    | nil => simp [writePos, decimal_eq, List.intercalate]
    | cons m p =>
      rw [writePos, ih, decimal_eq]
      simp [List.intercalate, List.intersperse]

/-! ## Names -/

theorem named_renamed {names : List Text} {a b : String} (h : a.toList ∈ names ↔ b.toList ∈ names) (o : List (Text × Json)) :
    named names (renamed a b o) = named names o := by
  induction o with
  | nil => rfl
  | cons p o ih =>
    unfold named renamed at ih ⊢
    rw [List.map_cons]
    by_cases hp : p.1 = a.toList
    · rw [if_pos hp]
      by_cases hm : a.toList ∈ names
      · rw [List.filter_cons_of_pos (by simpa using h.1 hm), List.filter_cons_of_pos (by simpa [hp] using hm), List.map_cons, List.map_cons,
          ih]
      · rw [List.filter_cons_of_neg (by simpa using fun x => hm (h.2 x)), List.filter_cons_of_neg (by simpa [hp] using hm), ih]
    · rw [if_neg hp]
      by_cases hm : p.1 ∈ names
      · rw [List.filter_cons_of_pos (by simpa using hm), List.filter_cons_of_pos (by simpa using hm), List.map_cons, List.map_cons, ih]
      · rw [List.filter_cons_of_neg (by simpa using hm), List.filter_cons_of_neg (by simpa using hm), ih]

theorem req_renamed {names : List Text} {a b : String} (h : a.toList ∈ names ↔ b.toList ∈ names) (o : List (Text × Json)) :
    req names (renamed a b o) = req names o := by
  unfold req; rw [named_renamed h]

theorem opt_renamed {names : List Text} {a b : String} (h : a.toList ∈ names ↔ b.toList ∈ names) (o : List (Text × Json)) :
    opt names (renamed a b o) = opt names o := by
  unfold opt; rw [named_renamed h]

/-! ## Boxes -/

section
variable {G B T : Type}

/-- A way to write amounts that the readers read. -/
def AmountForm (amt : Nat → Json) : Prop := ∀ n, n < 2 ^ 64 → readAmount (amt n) = .ok n

theorem asNumber_form : AmountForm asNumber := fun n h => readAmount_nat h

theorem asText_form : AmountForm asText := fun n h => by
  unfold asText
  rw [← decimal_eq]
  exact readAmount_str h

theorem readToken_form {amt : Nat → Json} (ha : AmountForm amt) {t : Token} (h1 : t.1.length = 32) (h2 : t.2 < 2 ^ 64) :
    readToken (tokenForm amt t) = .ok t := by
  unfold tokenForm
  rw [← strHex_eq, show fields [("tokenId", Json.str (hexEnc t.1)), ("amount", amt t.2)] =
    .obj [(kTokenId, .str (hexEnc t.1)), (kAmount, amt t.2)] from by simp only [fields, List.map_cons, List.map_nil]; rfl]
  unfold readToken
  simp only []
  rw [show req [kTokenId] [(kTokenId, Json.str (hexEnc t.1)), (kAmount, amt t.2)] = .ok (.str (hexEnc t.1)) from rfl,
    show req [kAmount] [(kTokenId, Json.str (hexEnc t.1)), (kAmount, amt t.2)] = .ok (amt t.2) from rfl]
  rw [Outcome.bind_ok, readDigest_hex h1, Outcome.bind_ok, Outcome.bind_ok, ha _ h2]
  rfl

theorem readTokens_form {amt : Nat → Json} (ha : AmountForm amt) {tk : Option (List Token)} (h : JsonTokens tk) :
    readTokens (.arr ((tk.getD []).map (tokenForm amt))) = .ok tk := by
  unfold readTokens
  have hg : ∀ t ∈ tk.getD [], readToken (tokenForm amt t) = .ok t := by
    intro t ht
    cases tk with
    | none => simp at ht
    | some l => exact readToken_form ha (h.2.2 t ht).1 (h.2.2 t ht).2
  rw [readArr_map hg, Outcome.bind_ok, boxTokensOf_getD h]
  rfl

variable [DecidableEq G]

theorem writeRegEntries_form (E : Sers G B T) : ∀ (ids : List NmId) (rs : Regs G B) (l : List (Text × Json)),
    writeRegEntries E ids rs = .ok l → ∃ bs : List Bytes, List.Forall₂ (fun v b => v.serBytes E = .ok b) rs bs ∧
      rs.length ≤ ids.length ∧ l = List.zip (ids.map NmId.toStr) (bs.map hex)
  | ids, [], l, h => by
    have : l = [] := by cases ids <;> (simp [writeRegEntries] at h; exact h)
    exact ⟨[], List.Forall₂.nil, by simp, by simp [this]⟩
  | [], v :: vs, l, h => by simp [writeRegEntries] at h
  | r :: ids, v :: vs, l, h => by
    rw [writeRegEntries] at h
    obtain ⟨b, h1, h⟩ := json_bind_ok.1 h
    obtain ⟨l', h2, h⟩ := json_bind_ok.1 h
    cases h
    obtain ⟨bs, e1, e2, e3⟩ := writeRegEntries_form E ids vs l' h2
    exact ⟨b :: bs, List.Forall₂.cons h1 e1, by simpa using e2, by simp [e3, strHex_eq]⟩

theorem writeRegEntries_of_form (E : Sers G B T) : ∀ (ids : List NmId) (rs : Regs G B) (bs : List Bytes),
    List.Forall₂ (fun v b => v.serBytes E = .ok b) rs bs → rs.length ≤ ids.length →
      writeRegEntries E ids rs = .ok (List.zip (ids.map NmId.toStr) (bs.map hex))
  | ids, [], bs, h, _ => by
    cases h
    cases ids <;> simp [writeRegEntries]
  | [], v :: vs, bs, h, hl => by simp at hl
  | r :: ids, v :: vs, bs, h, hl => by
    cases h with
    | cons h1 h2 =>
      rw [writeRegEntries, h1, Outcome.bind_ok, writeRegEntries_of_form E ids vs _ h2 (by simpa using hl), Outcome.bind_ok]
      simp [strHex_eq]

theorem regNames_eq : NmId.regIds.map NmId.toStr = ["R4", "R5", "R6", "R7", "R8", "R9"].map String.toList := by decide +kernel

theorem writeRegs_form (E : Sers G B T) {ord : List (Text × Json) → List (Text × Json)} (ho : IsOrder ord) {rs : Regs G B} {j : Json}
    (h : writeRegs E ord rs = .ok j) : ∃ o, j = .obj o ∧ RegForm E rs o := by
  unfold writeRegs at h
  obtain ⟨l, h1, h2⟩ := json_bind_ok.1 h
  cases h2
  obtain ⟨bs, e1, e2, e3⟩ := writeRegEntries_form E _ rs l h1
  refine ⟨_, rfl, bs, e1, e2, ?_⟩
  rw [← regNames_eq, ← e3]
  exact ho l

theorem readRegs_form (E : Sers G B T) {bwf : B → Prop} {twf : T → Prop} (h : GoodSers E bwf twf) {rs : Regs G B}
    (hr : ∀ v ∈ rs, JsonReg E bwf v) {o : List (Text × Json)} (hf : RegForm E rs o) : readRegs E (.obj o) = .ok rs := by
  obtain ⟨bs, e1, e2, e3⟩ := hf
  rw [← regNames_eq] at e3
  classical
  have hw := writeRegEntries_of_form E NmId.regIds rs bs e1 e2
  obtain ⟨j, g1, g2⟩ := readRegs_write E h (ord := fun l => if l = List.zip (NmId.regIds.map NmId.toStr) (bs.map hex) then o else l)
    (fun l => by
      show (if _ then _ else _ : List (Text × Json)).Perm l
      split
      · rename_i hl; rw [hl]; exact e3
      · exact List.Perm.refl l) rs e2 hr
  unfold writeRegs at g1
  rw [hw, Outcome.bind_ok] at g1
  simp only [if_true, Outcome.pure_eq, Outcome.ok.injEq] at g1
  rw [g1]; exact g2

end
end Verif
