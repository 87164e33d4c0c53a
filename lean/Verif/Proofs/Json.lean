import Verif.Spec.Json
import Verif.Proofs.Register
import Verif.Proofs.Transaction
import Verif.Proofs.DerivationPath
import Mathlib.Data.List.Perm.Basic
import Mathlib.Data.List.Forall2

set_option linter.unusedSimpArgs false
set_option linter.unusedVariables false

/-!
# JSON: round trips and what readers establish
-/

namespace Verif
open Spec Json

/-! ## Outcomes -/

theorem json_bind_ok {α β : Type} {x : Outcome α} {f : α → Outcome β} {b : β} :
    (x >>= f) = .ok b ↔ ∃ a, x = .ok a ∧ f a = .ok b := Outcome.bind_eq_ok

theorem json_ofOpt {α : Type} {o : Option α} {a : α} : ofOpt o = .ok a ↔ o = some a := by
  cases o <;> simp [ofOpt]

/-! ## Hexadecimal text -/

theorem hexVal_hexDigit {n : Nat} (h : n < 16) : hexVal (hexDigit n) = some n := by
  have : ∀ n : Fin 16, hexVal (hexDigit n.val) = some n.val := by decide
  exact this ⟨n, h⟩

theorem hexDec_hexEnc (b : Bytes) : hexDec (hexEnc b) = some b := by
  induction b with
  | nil => rfl
  | cons x b ih =>
    have hx := x.isLt
    rw [hexEnc, hexDec, hexVal_hexDigit (by omega), hexVal_hexDigit (Nat.mod_lt _ (by decide)), ih]
    show some (BitVec.ofNat 8 (16 * (x.toNat / 16) + x.toNat % 16) :: b) = _
    rw [Nat.div_add_mod, BitVec.ofNat_toNat, BitVec.setWidth_eq]

theorem hexVal_lt {c : Char} {n : Nat} (h : hexVal c = some n) : n < 16 := by
  unfold hexVal at h
  simp only [] at h
  split at h
  · cases h; omega
  · split at h
    · cases h; omega
    · split at h
      · cases h; omega
      · cases h

theorem hexDec_length : ∀ {s : Text} {b : Bytes}, hexDec s = some b → s.length = 2 * b.length
  | [], b, h => by simp [hexDec] at h; subst h; rfl
  | [_], b, h => by simp [hexDec] at h
  | a :: c :: cs, b, h => by
    rw [hexDec] at h
    simp only [Option.bind_eq_bind, Option.bind_eq_some_iff, Option.pure_def, Option.some.injEq] at h
    obtain ⟨x, _, y, _, r, hr, rfl⟩ := h
    have := hexDec_length hr
    simp [this]; omega

theorem readHex_hex (b : Bytes) : readHex (.str (hexEnc b)) = .ok b := by
  unfold readHex readStr
  simp only [Outcome.bind_ok, hexDec_hexEnc, ofOpt]

theorem readDigest_hex {b : Bytes} (h : b.length = 32) : readDigest (.str (hexEnc b)) = .ok b := by
  unfold readDigest
  simp only [readHex_hex, Outcome.bind_ok, if_pos h]

theorem readDigest_len {j : Json} {b : Bytes} (h : readDigest j = .ok b) : b.length = 32 := by
  unfold readDigest at h
  obtain ⟨x, h1, h2⟩ := json_bind_ok.1 h
  split at h2
  · cases h2; assumption
  · cases h2

/-! ## Numbers -/

theorem parseUint_go_eq (bound : Nat) (ds : List Char) (acc : Nat) (h : AllDigits ds)
    (hb : ds.foldl (fun a c => 10 * a + (c.toNat - 48)) acc < bound) :
    parseUint.go bound acc ds = some (ds.foldl (fun a c => 10 * a + (c.toNat - 48)) acc) := by
  induction ds generalizing acc with
  | nil => rfl
  | cons c cs ih =>
    rw [List.foldl_cons] at hb ⊢
    have hc := h c (List.mem_cons_self ..)
    have hm := foldl_digits_mono cs (10 * acc + (c.toNat - 48))
    have e : acc * 10 + (c.toNat - 48) = 10 * acc + (c.toNat - 48) := by omega
    unfold parseUint.go
    have hd : digitVal c = some (c.toNat - 48) := if_pos hc
    rw [hd]
    simp only [e]
    rw [if_pos (by omega)]
    exact ih _ (fun d hd => h d (List.mem_cons_of_mem _ hd)) hb

theorem parseUint_decimal {bound n : Nat} (h : n < bound) : parseUint bound (decimal n) = some n := by
  have hd := decimal_digits n
  have hv := digitsValue_decimal n
  unfold digitsValue at hv
  cases e : decimal n with
  | nil => exact absurd e (decimal_ne_nil n)
  | cons c cs =>
    rw [e] at hd hv
    unfold parseUint
    have hc := digit_ne_plus (hd c (List.mem_cons_self ..))
    simp only [if_neg hc]
    rw [if_neg (by simp), parseUint_go_eq bound _ 0 hd (by rw [hv]; exact h), hv]

theorem decimal_inj {m n : Nat} (h : decimal m = decimal n) : m = n := by
  rw [← digitsValue_decimal m, ← digitsValue_decimal n, h]

theorem parseUint_go_lt {bound : Nat} : ∀ (ds : List Char) (acc n : Nat), acc < bound → parseUint.go bound acc ds = some n →
    n < bound
  | [], acc, n, h, e => by simp [parseUint.go] at e; omega
  | c :: cs, acc, n, h, e => by
    unfold parseUint.go at e
    split at e
    · cases e
    · split at e
      · rename_i hb
        exact parseUint_go_lt cs _ n hb e
      · cases e

theorem parseUint_lt {bound n : Nat} {s : Text} (hb : 0 < bound) (h : parseUint bound s = some n) : n < bound := by
  unfold parseUint at h
  split at h
  · cases h
  · simp only [] at h
    rename_i c cs
    generalize (if c = '+' then cs else c :: cs) = ds at h
    split at h
    · cases h
    · exact parseUint_go_lt _ 0 n hb h

theorem readAmount_nat {n : Nat} (h : n < 2 ^ 64) : readAmount (.num (.nat n)) = .ok n := if_pos h

theorem readAmount_str {n : Nat} (h : n < 2 ^ 64) : readAmount (.str (decimal n)) = .ok n := by
  unfold readAmount
  simp only [parseUint_decimal h, if_true]

theorem readAmount_lt {j : Json} {n : Nat} (h : readAmount j = .ok n) : n < 2 ^ 64 := by
  unfold readAmount at h
  split at h
  · split at h
    · cases h; assumption
    · cases h
  · split at h
    · rename_i hp
      split at h
      · cases h
        exact parseUint_lt (by decide) hp
      · cases h
    · cases h
  · cases h

theorem readUint_nat {b n : Nat} (h : n < b) : readUint b (.num (.nat n)) = .ok n := if_pos h

theorem readUint_lt {b n : Nat} {j : Json} (h : readUint b j = .ok n) : n < b := by
  unfold readUint at h
  split at h
  · split at h
    · cases h; assumption
    · cases h
  · cases h

/-! ## Arrays -/

theorem readArr_go_iff {α : Type} {f : Json → Outcome α} : ∀ {l : List Json} {as : List α},
    readArr.go f l = .ok as ↔ List.Forall₂ (fun j a => f j = .ok a) l as
  | [], as => by
    rw [readArr.go]
    cases as <;> simp
  | j :: l, as => by
    rw [readArr.go]
    constructor
    · intro h
      obtain ⟨a, h1, h2⟩ := json_bind_ok.1 h
      obtain ⟨as', h3, h4⟩ := json_bind_ok.1 h2
      cases h4
      exact List.Forall₂.cons h1 (readArr_go_iff.1 h3)
    · intro h
      cases h with
      | cons h1 h2 =>
        rw [h1, Outcome.bind_ok, readArr_go_iff.2 h2]
        rfl

theorem readArr_map {α : Type} {f : Json → Outcome α} {g : α → Json} {l : List α} (h : ∀ a ∈ l, f (g a) = .ok a) :
    readArr f (.arr (l.map g)) = .ok l := by
  show readArr.go f (l.map g) = .ok l
  rw [readArr_go_iff, List.forall₂_map_left_iff]
  induction l with
  | nil => exact List.Forall₂.nil
  | cons a l ih => exact List.Forall₂.cons (h a (by simp)) (ih (fun x hx => h x (by simp [hx])))

theorem writeMany_iff {α : Type} {f : α → Outcome Json} : ∀ {l : List α} {js : List Json},
    writeMany f l = .ok js ↔ List.Forall₂ (fun a j => f a = .ok j) l js
  | [], js => by
    rw [writeMany]
    cases js <;> simp
  | a :: l, js => by
    rw [writeMany]
    constructor
    · intro h
      obtain ⟨j, h1, h2⟩ := json_bind_ok.1 h
      obtain ⟨js', h3, h4⟩ := json_bind_ok.1 h2
      cases h4
      exact List.Forall₂.cons h1 (writeMany_iff.1 h3)
    · intro h
      cases h with
      | cons h1 h2 =>
        rw [h1, Outcome.bind_ok, writeMany_iff.2 h2]
        rfl

theorem writeMany_rt {α : Type} {f : α → Outcome Json} {g : Json → Outcome α} : ∀ (l : List α),
    (∀ a ∈ l, ∃ j, f a = .ok j ∧ g j = .ok a) → ∃ js, writeMany f l = .ok js ∧ readArr g (.arr js) = .ok l
  | [], _ => ⟨[], rfl, rfl⟩
  | a :: l, h => by
    obtain ⟨j, h1, h2⟩ := h a (by simp)
    obtain ⟨js, h3, h4⟩ := writeMany_rt l (fun x hx => h x (by simp [hx]))
    refine ⟨j :: js, by rw [writeMany, h1, Outcome.bind_ok, h3]; rfl, ?_⟩
    show readArr.go g (j :: js) = _
    have h5 : readArr.go g js = .ok l := h4
    rw [readArr.go, h2, Outcome.bind_ok, h5]
    rfl

/-! ## Fields -/

theorem named_perm {names : List Text} {o o' : List (Text × Json)} (h : o.Perm o') :
    (named names o).Perm (named names o') := (h.filter _).map _

theorem req_perm {names : List Text} {o o' : List (Text × Json)} (h : o.Perm o') : req names o = req names o' := by
  have hp := named_perm (names := names) h
  unfold req
  rcases h1 : named names o with _ | ⟨a, _ | ⟨b, l⟩⟩
  · rw [h1] at hp; rw [List.nil_perm.1 hp]
  · rw [h1] at hp; rw [List.singleton_perm.1 hp]
  · rw [h1] at hp
    have := hp.length_eq
    rcases h2 : named names o' with _ | ⟨a', _ | ⟨b', l'⟩⟩
    · simp [h2] at this
    · simp [h2] at this
    · simp

theorem opt_perm {names : List Text} {o o' : List (Text × Json)} (h : o.Perm o') : opt names o = opt names o' := by
  have hp := named_perm (names := names) h
  unfold opt
  rcases h1 : named names o with _ | ⟨a, _ | ⟨b, l⟩⟩
  · rw [h1] at hp; rw [List.nil_perm.1 hp]
  · rw [h1] at hp; rw [List.singleton_perm.1 hp]
  · rw [h1] at hp
    have := hp.length_eq
    rcases h2 : named names o' with _ | ⟨a', _ | ⟨b', l'⟩⟩
    · simp [h2] at this
    · simp [h2] at this
    · simp

theorem named_extra {names : List Text} {k : Text} {j : Json} {o : List (Text × Json)} (h : k ∉ names) :
    named names ((k, j) :: o) = named names o := by
  unfold named
  rw [List.filter_cons_of_neg (by simpa using h)]

theorem req_extra {names : List Text} {k : Text} {j : Json} {o : List (Text × Json)} (h : k ∉ names) :
    req names ((k, j) :: o) = req names o := by
  unfold req
  rw [named_extra h]

theorem opt_extra {names : List Text} {k : Text} {j : Json} {o : List (Text × Json)} (h : k ∉ names) :
    opt names ((k, j) :: o) = opt names o := by
  unfold opt
  rw [named_extra h]

/-! ## Tokens -/

theorem readToken_write {t : Token} (h1 : t.1.length = 32) (h2 : t.2 < 2 ^ 64) : readToken (writeToken t) = .ok t := by
  unfold writeToken
  show (req [kTokenId] [(kTokenId, .str (hexEnc t.1)), (kAmount, .num (.nat t.2))] >>= readDigest) >>= _ = _
  rw [show req [kTokenId] [(kTokenId, Json.str (hexEnc t.1)), (kAmount, .num (.nat t.2))] = .ok (.str (hexEnc t.1)) from rfl,
    show req [kAmount] [(kTokenId, Json.str (hexEnc t.1)), (kAmount, .num (.nat t.2))] = .ok (.num (.nat t.2)) from rfl]
  rw [Outcome.bind_ok, readDigest_hex h1, Outcome.bind_ok, Outcome.bind_ok, readAmount_nat h2]
  rfl

theorem readToken_spec {j : Json} {t : Token} (h : readToken j = .ok t) : t.1.length = 32 ∧ t.2 < 2 ^ 64 := by
  unfold readToken at h
  split at h
  · obtain ⟨i, h1, h2⟩ := json_bind_ok.1 h
    obtain ⟨a, h3, h4⟩ := json_bind_ok.1 h2
    obtain ⟨_, _, h5⟩ := json_bind_ok.1 h1
    obtain ⟨_, _, h6⟩ := json_bind_ok.1 h3
    cases h4
    exact ⟨readDigest_len h5, readAmount_lt h6⟩
  · cases h

theorem boxTokensOf_getD {tk : Option (List Token)} (h : JsonTokens tk) : boxTokensOf (tk.getD []) = some tk := by
  cases tk with
  | none => rfl
  | some l =>
    obtain ⟨h1, h2, _⟩ := h
    unfold boxTokensOf
    cases l with
    | nil => simp at h1
    | cons a l => simpa [maxTokensCount] using h2

theorem readTokens_write {tk : Option (List Token)} (h : JsonTokens tk) :
    readTokens (.arr ((tk.getD []).map writeToken)) = .ok tk := by
  unfold readTokens
  have hg : ∀ t ∈ tk.getD [], readToken (writeToken t) = .ok t := by
    intro t ht
    cases tk with
    | none => simp at ht
    | some l => exact readToken_write (h.2.2 t ht).1 (h.2.2 t ht).2
  rw [readArr_map hg, Outcome.bind_ok, boxTokensOf_getD h]
  rfl

theorem readTokens_spec {j : Json} {tk : Option (List Token)} (h : readTokens j = .ok tk) : JsonTokens tk := by
  unfold readTokens at h
  obtain ⟨l, h1, h2⟩ := json_bind_ok.1 h
  have h2 := json_ofOpt.1 h2
  have hl : ∀ t ∈ l, t.1.length = 32 ∧ t.2 < 2 ^ 64 := by
    unfold readArr at h1
    split at h1
    · have := readArr_go_iff.1 h1
      intro t ht
      obtain ⟨i, hi, e⟩ := List.getElem_of_mem ht
      have hlen := this.length_eq
      have := List.Forall₂.get this (i := i) (by omega) hi
      simp only [List.get_eq_getElem, e] at this
      exact readToken_spec this
    · cases h1
  unfold boxTokensOf at h2
  split at h2
  · cases h2; trivial
  · split at h2
    · rename_i hne hle
      cases h2
      refine ⟨?_, by simpa [maxTokensCount] using hle, hl⟩
      cases l with
      | nil => simp at hne
      | cons a l => simp
    · cases h2

/-! ## Registers -/

section
variable {G B T : Type}

/-- What reading one entry of the registers means. -/
def RegEntry (E : Sers G B T) (p : Text × Json) (q : NmId × RegVal G B) : Prop :=
  NmId.ofStr p.1 = .ok q.1 ∧ readRegister E p.2 = .ok q.2

/-- `HashMap::extend`. -/
def FMap.insertList {κ ν : Type} [DecidableEq κ] (m : FMap κ ν) (l : List (κ × ν)) : FMap κ ν :=
  l.foldl (fun m p => m.insert p.1 p.2) m

theorem readRegEntries_iff (E : Sers G B T) : ∀ (l : List (Text × Json)) (m m' : FMap NmId (RegVal G B)),
    readRegEntries E l m = .ok m' ↔ ∃ es, List.Forall₂ (RegEntry E) l es ∧ m' = FMap.insertList m es
  | [], m, m' => by
    rw [readRegEntries]
    constructor
    · intro h; cases h; exact ⟨[], List.Forall₂.nil, rfl⟩
    · rintro ⟨es, h1, h2⟩
      cases h1
      rw [h2]; rfl
  | p :: l, m, m' => by
    rw [readRegEntries]
    constructor
    · intro h
      obtain ⟨r, h1, h2⟩ := json_bind_ok.1 h
      obtain ⟨v, h3, h4⟩ := json_bind_ok.1 h2
      obtain ⟨es, h5, h6⟩ := (readRegEntries_iff E l _ m').1 h4
      exact ⟨(r, v) :: es, List.Forall₂.cons ⟨h1, h3⟩ h5, h6⟩
    · rintro ⟨es, h1, h2⟩
      cases h1 with
      | cons h3 h4 =>
        rename_i q es'
        rw [h3.1, Outcome.bind_ok, h3.2, Outcome.bind_ok]
        exact (readRegEntries_iff E l _ m').2 ⟨es', h4, h2⟩

theorem FMap.insertList_new {κ ν : Type} [DecidableEq κ] : ∀ (l m : FMap κ ν), FMap.Ok (m ++ l) →
    FMap.insertList m l = m ++ l
  | [], m, _ => by simp [FMap.insertList]
  | (k, v) :: l, m, h => by
    have hk : k ∉ m.map Prod.fst := by
      unfold FMap.Ok at h
      rw [List.map_append, List.nodup_append] at h
      intro hm
      exact h.2.2 _ hm k (by simp) rfl
    have : FMap.insertList m ((k, v) :: l) = FMap.insertList (FMap.insert m k v) l := rfl
    rw [this, FMap.insert_new m k v hk, FMap.insertList_new l (m ++ [(k, v)]) (by simpa using h)]
    simp

theorem FMap.insertList_nil {κ ν : Type} [DecidableEq κ] {l : FMap κ ν} (h : FMap.Ok l) :
    FMap.insertList ([] : FMap κ ν) l = l := by
  rw [FMap.insertList_new l [] (by simpa using h)]; rfl

theorem FMap.get_perm {κ ν : Type} [DecidableEq κ] {m m' : FMap κ ν} (h : m.Perm m') (hm : FMap.Ok m) (k : κ) :
    FMap.get m k = FMap.get m' k := by
  have hm' : FMap.Ok m' := by
    unfold FMap.Ok at hm ⊢
    exact (h.map Prod.fst).nodup_iff.1 hm
  cases e : FMap.get m k with
  | none =>
    rw [FMap.get_eq_none_iff] at e
    exact ((FMap.get_eq_none_iff m' k).2 (fun hc => e ((h.map Prod.fst).mem_iff.2 hc))).symm
  | some v =>
    have := (FMap.mem_iff_get hm k v).2 e
    exact ((FMap.mem_iff_get hm' k v).1 (h.mem_iff.1 this)).symm

theorem collect_congr {m m' : FMap NmId (RegVal G B)} (h : ∀ r, m.get r = m'.get r) : ∀ l : List NmId,
    Regs.collect m l = Regs.collect m' l
  | [] => rfl
  | r :: l => by rw [Regs.collect, Regs.collect, h r, collect_congr h l]

theorem ofMap_perm {m m' : FMap NmId (RegVal G B)} (h : m.Perm m') (hm : FMap.Ok m) : Regs.ofMap m = Regs.ofMap m' := by
  unfold Regs.ofMap
  rw [h.length_eq, collect_congr (FMap.get_perm h hm)]

theorem RegEntry.keys {E : Sers G B T} {l : List (Text × Json)} {es : List (NmId × RegVal G B)}
    (h : List.Forall₂ (RegEntry E) l es) : l.map Prod.fst = es.map fun q => q.1.toStr := by
  induction h with
  | nil => rfl
  | cons h1 _ ih =>
    simp only [List.map_cons, ih]
    rw [NmId.toStr_ofStr h1.1]

theorem toStr_inj {r r' : NmId} (h : r.toStr = r'.toStr) : r = r' := by
  have h1 := NmId.ofStr_toStr r
  rw [h, NmId.ofStr_toStr] at h1
  cases h1; rfl

theorem RegEntry.ok {E : Sers G B T} {l : List (Text × Json)} {es : List (NmId × RegVal G B)}
    (h : List.Forall₂ (RegEntry E) l es) : (l.map Prod.fst).Nodup ↔ FMap.Ok es := by
  rw [RegEntry.keys h]
  unfold FMap.Ok
  rw [show (es.map fun q => q.1.toStr) = (es.map Prod.fst).map NmId.toStr from by simp [List.map_map, Function.comp_def]]
  exact List.nodup_map_iff (fun _ _ => toStr_inj)

/-- Registers with distinct names are read alike in every order. -/
theorem readRegs_perm (E : Sers G B T) {o o' : List (Text × Json)} (hp : o.Perm o') (hk : (o.map Prod.fst).Nodup)
    {rs : Regs G B} (h : readRegs E (.obj o) = .ok rs) : readRegs E (.obj o') = .ok rs := by
  unfold readRegs at h ⊢
  simp only [] at h ⊢
  obtain ⟨m, h1, h2⟩ := json_bind_ok.1 h
  obtain ⟨es, h3, h4⟩ := (readRegEntries_iff E o [] m).1 h1
  have hok := (RegEntry.ok h3).1 hk
  rw [FMap.insertList_nil hok] at h4
  subst h4
  obtain ⟨es', h5, h6⟩ := List.perm_comp_forall₂ hp.symm h3
  have hok' : FMap.Ok es' := (RegEntry.ok h5).1 ((hp.map _).nodup_iff.1 hk)
  rw [(readRegEntries_iff E o' [] es').2 ⟨es', h5, (FMap.insertList_nil hok').symm⟩, Outcome.bind_ok,
    ofMap_perm h6 hok']
  exact h2

variable [DecidableEq G]

theorem readRegister_write (E : Sers G B T) {bwf : B → Prop} {twf : T → Prop} (h : GoodSers E bwf twf) (v : RegVal G B)
    (hv : JsonReg E bwf v) : ∃ bs, v.serBytes E = .ok bs ∧ readRegister E (.str (hexEnc bs)) = .ok v := by
  have key : GoodReg E.utf8 bwf v → ∃ bs, v.ser E = .ok bs ∧ RegVal.parseBytes E bs = v := by
    intro hg
    obtain ⟨x, bs, e1, e2, e3⟩ := Regs.regVal_rt E h v hg
    refine ⟨bs, e2, ?_⟩
    have := e3 []
    rw [List.append_nil] at this
    unfold RegVal.parseBytes
    rw [this]
    exact e1
  have rd : ∀ bs, readRegister E (.str (hexEnc bs)) = .ok (RegVal.parseBytes E bs) := by
    intro bs
    unfold readRegister
    simp only [hexDec_hexEnc, ofOpt, Outcome.bind_ok, Outcome.pure_eq]
  cases v with
  | parsed c =>
    obtain ⟨bs, e1, e2⟩ := key hv
    exact ⟨bs, by simp only [RegVal.serBytes, e1], by rw [rd, e2]⟩
  | tupleExpr l =>
    obtain ⟨bs, e1, e2⟩ := key hv
    exact ⟨bs, by simp only [RegVal.serBytes, e1], by rw [rd, e2]⟩
  | invalid b =>
    refine ⟨b, rfl, ?_⟩
    have : RItem.parse E b = none := hv
    rw [rd]
    unfold RegVal.parseBytes
    rw [this]

omit [DecidableEq G] in
theorem readRegister_spec (E : Sers G B T) {bwf : B → Prop} (hp : BoxParsed E.bc bwf) {j : Json} {v : RegVal G B}
    (h : readRegister E j = .ok v) [DecidableEq G] : JsonReg E bwf v := by
  have key : ∀ b, JsonReg E bwf (RegVal.parseBytes E b) := by
    intro b
    unfold RegVal.parseBytes
    cases e : RItem.parse E b with
    | none => exact e
    | some x =>
      obtain ⟨i, rest⟩ := x
      have := RItem.parsed E hp b i rest e
      cases i with
      | const c => rw [GoodItem] at this; exact this
      | tuple l => rw [GoodItem] at this; exact this
  unfold readRegister at h
  split at h
  · obtain ⟨b, h1, h2⟩ := json_bind_ok.1 h
    cases h2; exact key b
  · obtain ⟨b, h1, h2⟩ := json_bind_ok.1 h
    cases h2; exact key b
  · cases h

theorem writeRegEntries_rt (E : Sers G B T) {bwf : B → Prop} {twf : T → Prop} (h : GoodSers E bwf twf) :
    ∀ (ids : List NmId) (rs : Regs G B), rs.length ≤ ids.length → (∀ v ∈ rs, JsonReg E bwf v) →
      ∃ l, writeRegEntries E ids rs = .ok l ∧ List.Forall₂ (RegEntry E) l (ids.zip rs)
  | _, [], _, _ => ⟨[], by cases ‹List NmId› <;> rfl, by simp⟩
  | [], _ :: _, h1, _ => by simp at h1
  | r :: ids, v :: rs, h1, h2 => by
    obtain ⟨bs, e1, e2⟩ := readRegister_write E h v (h2 v (by simp))
    obtain ⟨l, e3, e4⟩ := writeRegEntries_rt E h ids rs (by simpa using h1) (fun x hx => h2 x (by simp [hx]))
    refine ⟨(r.toStr, .str (hexEnc bs)) :: l, by rw [writeRegEntries, e1, Outcome.bind_ok, e3]; rfl, ?_⟩
    exact List.Forall₂.cons ⟨NmId.ofStr_toStr r, e2⟩ e4

theorem readRegs_write (E : Sers G B T) {bwf : B → Prop} {twf : T → Prop} (h : GoodSers E bwf twf)
    {ord : List (Text × Json) → List (Text × Json)} (ho : IsOrder ord) (rs : Regs G B) (h6 : rs.length ≤ 6)
    (hr : ∀ v ∈ rs, JsonReg E bwf v) : ∃ j, writeRegs E ord rs = .ok j ∧ readRegs E j = .ok rs := by
  obtain ⟨l, e1, e2⟩ := writeRegEntries_rt E h NmId.regIds rs (by simpa [NmId.regIds] using h6) hr
  refine ⟨.obj (ord l), by unfold writeRegs; rw [e1]; rfl, ?_⟩
  have hok : FMap.Ok (NmId.regIds.zip rs) := Regs.toMap_ok rs
  refine readRegs_perm E (ho l).symm ((RegEntry.ok e2).2 hok) ?_
  unfold readRegs
  simp only []
  rw [(readRegEntries_iff E l [] _).2 ⟨_, e2, (FMap.insertList_nil hok).symm⟩, Outcome.bind_ok]
  exact json_ofOpt.2 (Regs.ofMap_toMap rs h6)

omit [DecidableEq G] in
theorem insertList_ok {κ ν : Type} [DecidableEq κ] : ∀ (l m : FMap κ ν), FMap.Ok m → FMap.Ok (FMap.insertList m l)
  | [], m, h => h
  | (k, v) :: l, m, h => insertList_ok l _ (FMap.Ok.insert h k v)

omit [DecidableEq G] in
theorem insertList_mem {κ ν : Type} [DecidableEq κ] : ∀ (l m : FMap κ ν) (p : κ × ν), p ∈ FMap.insertList m l →
    p ∈ m ∨ p ∈ l
  | [], m, p, h => Or.inl h
  | (k, v) :: l, m, p, h => by
    rcases insertList_mem l _ p h with h | h
    · rcases FMap.mem_insert m k v p h with h | h
      · exact Or.inr (by simp [h])
      · exact Or.inl h
    · exact Or.inr (by simp [h])

omit [DecidableEq G] in
theorem readRegs_spec [DecidableEq G] (E : Sers G B T) {bwf : B → Prop} (hp : BoxParsed E.bc bwf) {j : Json} {rs : Regs G B}
    (h : readRegs E j = .ok rs) : rs.length ≤ 6 ∧ ∀ v ∈ rs, JsonReg E bwf v := by
  unfold readRegs at h
  split at h
  · obtain ⟨m, h1, h2⟩ := json_bind_ok.1 h
    have h2 := json_ofOpt.1 h2
    obtain ⟨es, h3, h4⟩ := (readRegEntries_iff E _ [] m).1 h1
    have hok : FMap.Ok m := h4 ▸ insertList_ok es [] (by simp [FMap.Ok])
    obtain ⟨s1, s2⟩ := Regs.ofMap_spec hok h2
    have s3 := Regs.length_le_six m hok
    refine ⟨by omega, fun v hv => ?_⟩
    obtain ⟨i, hi, e⟩ := List.getElem_of_mem hv
    have hi6 : i < 6 := by omega
    have := s2 (NmId.regIds[i]'(by simpa [NmId.regIds] using hi6))
    have e4 : (NmId.regIds[i]'(by simpa [NmId.regIds] using hi6)).toNat - 4 = i := by
      rcases i with _ | _ | _ | _ | _ | _ | i <;> first | rfl | omega
    rw [e4, List.getElem?_eq_getElem hi, e] at this
    have hm := FMap.get_some_mem this.symm
    rw [h4] at hm
    rcases insertList_mem es [] _ hm with hm | hm
    · simp at hm
    · obtain ⟨k, hk, e5⟩ := List.getElem_of_mem hm
      have hlen := h3.length_eq
      have := List.Forall₂.get h3 (i := k) (by omega) hk
      simp only [List.get_eq_getElem, e5] at this
      exact readRegister_spec E hp this.2
  · cases h

end
end Verif
