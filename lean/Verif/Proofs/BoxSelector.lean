import Verif.Spec.Assets
import Verif.Proofs.FMap

/-! Helper lemmas for box selection and transaction building. -/

set_option linter.unusedSimpArgs false
set_option linter.unusedVariables false

namespace Verif
open Spec

/-- i64::MAX -/
abbrev amtMax : Nat := 9223372036854775807

theorem tokTotal_nil (id : TokenId) : tokTotal id [] = 0 := rfl

theorem tokTotal_cons (id : TokenId) (t : Token) (ts : List Token) :
    tokTotal id (t :: ts) = (if t.1 = id then t.2 else 0) + tokTotal id ts := by
  unfold tokTotal
  by_cases h : t.1 = id <;> simp [h]

theorem tokTotal_append (id : TokenId) (a b : List Token) :
    tokTotal id (a ++ b) = tokTotal id a + tokTotal id b := by
  unfold tokTotal; simp

theorem tokTotal_perm (id : TokenId) {a b : List Token} (h : a.Perm b) : tokTotal id a = tokTotal id b := by
  unfold tokTotal
  exact ((h.filter _).map _).sum_nat

/-- Amount of `id` in a token map. -/
def amt (m : TokenMap) (id : TokenId) : Nat := (FMap.get m id).getD 0

/-- Type invariant of a token map. -/
structure Good (m : TokenMap) : Prop where
  ok : FMap.Ok m
  pos : ∀ id a, FMap.get m id = some a → 1 ≤ a
  le : ∀ id a, FMap.get m id = some a → a ≤ amtMax

theorem Good.nil : Good [] := ⟨FMap.Ok.nil, by simp [FMap.get], by simp [FMap.get]⟩

theorem Good.insert {m : TokenMap} (h : Good m) (id : TokenId) (a : Nat) (h1 : 1 ≤ a) (h2 : a ≤ amtMax) :
    Good (FMap.insert m id a) := by
  refine ⟨h.ok.insert _ _, ?_, ?_⟩ <;>
  · intro id' b hb
    rw [FMap.get_insert] at hb
    split at hb
    · simp at hb; omega
    · first | exact h.pos _ _ hb | exact h.le _ _ hb

theorem Good.erase {m : TokenMap} (h : Good m) (id : TokenId) : Good (FMap.erase m id) := by
  refine ⟨h.ok.erase _, ?_, ?_⟩ <;>
  · intro id' b hb
    rw [FMap.get_erase] at hb
    split at hb
    · simp at hb
    · first | exact h.pos _ _ hb | exact h.le _ _ hb

theorem amt_insert (m : TokenMap) (id id' : TokenId) (a : Nat) :
    amt (FMap.insert m id a) id' = if id = id' then a else amt m id' := by
  unfold amt; rw [FMap.get_insert]; split <;> simp

theorem amt_erase (m : TokenMap) (id id' : TokenId) :
    amt (FMap.erase m id) id' = if id = id' then 0 else amt m id' := by
  unfold amt; rw [FMap.get_erase]; split <;> simp

theorem amt_nil (id : TokenId) : amt [] id = 0 := rfl

theorem amt_of_get {m : TokenMap} {id : TokenId} {a : Nat} (h : FMap.get m id = some a) : amt m id = a := by
  simp [amt, h]

theorem amt_of_none {m : TokenMap} {id : TokenId} (h : FMap.get m id = none) : amt m id = 0 := by
  simp [amt, h]

theorem Good.get_eq {m : TokenMap} (h : Good m) (id : TokenId) :
    FMap.get m id = if amt m id = 0 then none else some (amt m id) := by
  unfold amt
  cases hg : FMap.get m id with
  | none => simp
  | some a => have := h.pos _ _ hg; simp; omega

theorem Good.mapEq_iff {m n : TokenMap} (hm : Good m) (hn : Good n) :
    FMap.mapEq m n = true ↔ ∀ id, amt m id = amt n id := by
  rw [FMap.mapEq_iff hm.ok hn.ok]
  constructor
  · intro h id; unfold amt; rw [h]
  · intro h id; rw [hm.get_eq, hn.get_eq, h]

theorem Good.amt_le {m : TokenMap} (h : Good m) (id : TokenId) : amt m id ≤ amtMax := by
  cases hg : FMap.get m id with
  | none => rw [amt_of_none hg]; omega
  | some a => rw [amt_of_get hg]; exact h.le _ _ hg

theorem Good.isEmpty_iff {m : TokenMap} (h : Good m) : m.isEmpty = true ↔ ∀ id, amt m id = 0 := by
  constructor
  · intro he id
    have : m = [] := by simpa using he
    subst this; rfl
  · intro ha
    cases m with
    | nil => rfl
    | cons p m =>
      have := ha p.1
      have hg : FMap.get (p :: m) p.1 = some p.2 := by simp [FMap.get]
      rw [amt_of_get hg] at this
      have := h.pos _ _ hg
      omega

/-- Amount of `id` in the entry list of a map. -/
theorem tokTotal_map {m : TokenMap} (h : FMap.Ok m) (id : TokenId) : tokTotal id m = amt m id := by
  induction m with
  | nil => rfl
  | cons p m ih =>
    obtain ⟨k, v⟩ := p
    unfold FMap.Ok at h ih
    simp only [List.map_cons, List.nodup_cons] at h
    rw [tokTotal_cons, ih h.2]
    unfold amt
    by_cases hk : k = id
    · subst hk
      have : FMap.get m k = none := (FMap.get_eq_none_iff m k).2 h.1
      simp [FMap.get, this]
    · simp [FMap.get, hk]

def ToksOk (ts : List Token) : Prop := ∀ t ∈ ts, 1 ≤ t.2 ∧ t.2 ≤ amtMax

theorem Good.toksOk {m : TokenMap} (h : Good m) : ToksOk m := by
  intro t ht
  have := (FMap.mem_iff_get h.ok t.1 t.2).1 ht
  exact ⟨h.pos _ _ this, h.le _ _ this⟩

theorem checkedAdd_iff (a b r : Nat) :
    TokenAmount.checkedAdd a b = some r ↔ r = a + b ∧ r ≤ amtMax := by
  unfold TokenAmount.checkedAdd TokenAmount.maxRaw
  split
  · split <;> simp [amtMax] <;> omega
  · simp [amtMax]; omega

theorem checkedSub_iff (a b r : Nat) :
    TokenAmount.checkedSub a b = some r ↔ r + b = a ∧ 1 ≤ r := by
  unfold TokenAmount.checkedSub TokenAmount.minRaw
  split
  · split <;> simp <;> omega
  · simp; omega

theorem ofOpt_eq_ok {α : Type} {o : Option α} {a : α} : ofOpt o = .ok a ↔ o = some a := by
  cases o <;> simp [ofOpt]

theorem ofOpt_ne_panic {α : Type} (o : Option α) : ofOpt o ≠ .panic := by cases o <;> simp [ofOpt]

theorem addToken_ok {res r : TokenMap} {t : Token} (hg : Good res) (ht : 1 ≤ t.2 ∧ t.2 ≤ amtMax)
    (h : addToken res t = .ok r) :
    Good r ∧ ∀ id, amt r id = amt res id + (if t.1 = id then t.2 else 0) := by
  unfold addToken at h
  cases hgt : FMap.get res t.1 with
  | some a =>
    rw [hgt] at h
    simp only at h
    rw [Outcome.bind_eq_ok] at h
    obtain ⟨a', h1, h2⟩ := h
    rw [ofOpt_eq_ok, checkedAdd_iff] at h1
    simp only [Outcome.pure_eq, Outcome.ok.injEq] at h2
    subst h2
    refine ⟨hg.insert _ _ (by omega) h1.2, fun id => ?_⟩
    rw [amt_insert]
    by_cases hid : t.1 = id
    · subst hid; simp [amt_of_get hgt, h1.1]
    · simp [hid]
  | none =>
    rw [hgt] at h
    simp only [Outcome.pure_eq, Outcome.ok.injEq] at h
    subst h
    refine ⟨hg.insert _ _ ht.1 ht.2, fun id => ?_⟩
    rw [amt_insert]
    by_cases hid : t.1 = id
    · subst hid; simp [amt_of_none hgt]
    · simp [hid]

theorem addTokens_ok (ts : List Token) : ∀ (res r : TokenMap), Good res → ToksOk ts →
    addTokens res ts = .ok r → Good r ∧ ∀ id, amt r id = amt res id + tokTotal id ts := by
  induction ts with
  | nil =>
    intro res r hg _ h
    simp only [addTokens, Outcome.pure_eq, Outcome.ok.injEq] at h
    subst h
    exact ⟨hg, fun id => by simp [tokTotal_nil]⟩
  | cons t ts ih =>
    intro res r hg ht h
    rw [addTokens, Outcome.bind_eq_ok] at h
    obtain ⟨r1, h1, h2⟩ := h
    obtain ⟨g1, a1⟩ := addToken_ok hg (ht t (by simp)) h1
    obtain ⟨g2, a2⟩ := ih r1 r g1 (fun x hx => ht x (by simp [hx])) h2
    refine ⟨g2, fun id => ?_⟩
    rw [a2, a1, tokTotal_cons]; omega

theorem addTokens_total (ts : List Token) : ∀ (res : TokenMap), Good res → ToksOk ts →
    (∀ id, amt res id + tokTotal id ts ≤ amtMax) → ∃ r, addTokens res ts = .ok r := by
  induction ts with
  | nil => intro res _ _ _; exact ⟨res, rfl⟩
  | cons t ts ih =>
    intro res hg ht hle
    have ht1 := ht t (by simp)
    have : ∃ r1, addToken res t = .ok r1 := by
      unfold addToken
      cases hgt : FMap.get res t.1 with
      | none => exact ⟨_, rfl⟩
      | some a =>
        have h1 := hle t.1
        rw [amt_of_get hgt, tokTotal_cons, if_pos rfl] at h1
        have : TokenAmount.checkedAdd a t.2 = some (a + t.2) := (checkedAdd_iff _ _ _).2 ⟨rfl, by omega⟩
        simp [this, ofOpt]
    obtain ⟨r1, h1⟩ := this
    obtain ⟨g1, a1⟩ := addToken_ok hg ht1 h1
    obtain ⟨r, hr⟩ := ih r1 g1 (fun x hx => ht x (by simp [hx])) (by
      intro id
      have := hle id
      rw [tokTotal_cons] at this
      rw [a1]; omega)
    exact ⟨r, by rw [addTokens, h1]; exact hr⟩

theorem addTokens_le (ts : List Token) (res r : TokenMap) (hg : Good res) (ht : ToksOk ts)
    (h : addTokens res ts = .ok r) (id : TokenId) : amt res id + tokTotal id ts ≤ amtMax := by
  obtain ⟨g, a⟩ := addTokens_ok ts res r hg ht h
  rw [← a]; exact g.amt_le id

theorem addTokens_ne_panic (ts : List Token) : ∀ (res : TokenMap), addTokens res ts ≠ .panic := by
  induction ts with
  | nil => intro res; simp [addTokens]
  | cons t ts ih =>
    intro res
    rw [addTokens]
    have : addToken res t ≠ .panic := by
      unfold addToken
      cases FMap.get res t.1 with
      | none => simp
      | some a =>
        simp only
        cases TokenAmount.checkedAdd a t.2 <;> simp [ofOpt]
    cases h : addToken res t with
    | ok r => simpa using ih r
    | err => simp
    | panic => exact absurd h this

/-! ## keys come from the tokens -/

theorem addTokens_keys (ts : List Token) (res r : TokenMap) (hg : Good res) (ht : ToksOk ts)
    (h : addTokens res ts = .ok r) (id : TokenId) (hid : id ∈ r.map Prod.fst) :
    0 < amt res id + tokTotal id ts := by
  obtain ⟨g, a⟩ := addTokens_ok ts res r hg ht h
  rw [← a]
  cases hgt : FMap.get r id with
  | none => exact absurd hid ((FMap.get_eq_none_iff r id).1 hgt)
  | some v => rw [amt_of_get hgt]; have := g.pos _ _ hgt; omega

theorem tokTotal_pos_mem {id : TokenId} {ts : List Token} (h : 0 < tokTotal id ts) : ∃ t ∈ ts, t.1 = id := by
  induction ts with
  | nil => simp [tokTotal_nil] at h
  | cons t ts ih =>
    by_cases ht : t.1 = id
    · exact ⟨t, by simp, ht⟩
    · rw [tokTotal_cons, if_neg ht, Nat.zero_add] at h
      obtain ⟨t', h1, h2⟩ := ih h
      exact ⟨t', by simp [h1], h2⟩

theorem tokTotal_mem_le {id : TokenId} {a : Nat} {ts : List Token} (h : (id, a) ∈ ts) : a ≤ tokTotal id ts := by
  induction ts with
  | nil => simp at h
  | cons t ts ih =>
    rw [tokTotal_cons]
    rcases List.mem_cons.1 h with h | h
    · subst h; simp
    · have := ih h; omega

/-! ## subtract_tokens -/

theorem subtractTokens_ok (ts : List Token) : ∀ (res r : TokenMap), Good res → ToksOk ts →
    subtractTokens res ts = .ok r → Good r ∧ ∀ id, amt r id + tokTotal id ts = amt res id := by
  induction ts with
  | nil =>
    intro res r hg _ h
    simp only [subtractTokens, Outcome.pure_eq, Outcome.ok.injEq] at h
    subst h
    exact ⟨hg, fun id => by simp [tokTotal_nil]⟩
  | cons t ts ih =>
    intro res r hg ht h
    rw [subtractTokens, Outcome.bind_eq_ok] at h
    obtain ⟨r1, h1, h2⟩ := h
    have key : Good r1 ∧ ∀ id, amt r1 id + (if t.1 = id then t.2 else 0) = amt res id := by
      unfold subtractToken at h1
      cases hgt : FMap.get res t.1 with
      | none => rw [hgt] at h1; simp at h1
      | some a =>
        rw [hgt] at h1
        simp only at h1
        by_cases ha : a = t.2
        · rw [if_pos ha] at h1
          simp only [Outcome.pure_eq, Outcome.ok.injEq] at h1
          subst h1
          refine ⟨hg.erase _, fun id => ?_⟩
          rw [amt_erase]
          by_cases hid : t.1 = id
          · subst hid; simp [amt_of_get hgt, ha]
          · simp [hid]
        · rw [if_neg ha, Outcome.bind_eq_ok] at h1
          obtain ⟨a', h3, h4⟩ := h1
          rw [ofOpt_eq_ok, checkedSub_iff] at h3
          simp only [Outcome.pure_eq, Outcome.ok.injEq] at h4
          subst h4
          have := hg.le _ _ hgt
          refine ⟨hg.insert _ _ h3.2 (by omega), fun id => ?_⟩
          rw [amt_insert]
          by_cases hid : t.1 = id
          · subst hid; simp [amt_of_get hgt, h3.1]
          · simp [hid]
    obtain ⟨g2, a2⟩ := ih r1 r key.1 (fun x hx => ht x (by simp [hx])) h2
    refine ⟨g2, fun id => ?_⟩
    have := key.2 id
    rw [tokTotal_cons, ← this, ← a2]; omega

/-! ## sum of values -/

theorem sumValueAux_ok (m : Mode) (bs : List Assets) : ∀ (acc r : Nat), acc < 2 ^ 64 → sumValueAux m acc bs = .ok r →
    r = (acc + boxesValue bs) % 2 ^ 64 ∧ (m = .debug → r = acc + boxesValue bs) ∧ r < 2 ^ 64 := by
  induction bs with
  | nil =>
    intro acc r hacc h
    simp only [sumValueAux, Outcome.ok.injEq] at h
    subst h
    have : boxesValue [] = 0 := rfl
    rw [this]
    exact ⟨by omega, by simp, hacc⟩
  | cons b bs ih =>
    intro acc r hacc h
    rw [sumValueAux, Outcome.bind_eq_ok] at h
    obtain ⟨acc', h1, h2⟩ := h
    have hc : boxesValue (b :: bs) = b.value + boxesValue bs := by simp [boxesValue]
    rw [hc]
    unfold addU64 at h1
    by_cases hlt : acc + b.value < 2 ^ 64
    · rw [if_pos hlt] at h1
      simp only [Outcome.ok.injEq] at h1
      subst h1
      have := ih _ _ hlt h2
      refine ⟨by rw [this.1]; congr 1; omega, fun hm => by rw [this.2.1 hm]; omega, this.2.2⟩
    · rw [if_neg hlt] at h1
      cases m with
      | debug => simp at h1
      | release =>
        simp only [Outcome.ok.injEq] at h1
        subst h1
        have := ih _ _ (Nat.mod_lt _ (by decide)) h2
        refine ⟨by rw [this.1]; omega, by simp, this.2.2⟩

theorem sumValueAux_total (m : Mode) (bs : List Assets) : ∀ (acc : Nat), acc + boxesValue bs < 2 ^ 64 →
    sumValueAux m acc bs = .ok (acc + boxesValue bs) := by
  induction bs with
  | nil => intro acc _; simp [sumValueAux, boxesValue]
  | cons b bs ih =>
    intro acc h
    have hc : boxesValue (b :: bs) = b.value + boxesValue bs := by simp [boxesValue]
    rw [hc] at h ⊢
    have ha : addU64 m acc b.value = .ok (acc + b.value) := by
      unfold addU64; rw [if_pos (by omega)]
    rw [sumValueAux, ha]
    simp only [Outcome.bind_ok]
    rw [ih _ (by omega)]
    congr 1; omega

theorem sumValue_total (m : Mode) (bs : List Assets) (h : boxesValue bs < 2 ^ 64) :
    sumValue m bs = .ok (boxesValue bs) := by
  have := sumValueAux_total m bs 0 (by omega)
  simpa [sumValue] using this

theorem boxesValue_append (a b : List Assets) : boxesValue (a ++ b) = boxesValue a + boxesValue b := by
  simp [boxesValue]

theorem boxesTok_append (id : TokenId) (a b : List Assets) : boxesTok id (a ++ b) = boxesTok id a + boxesTok id b := by
  simp [boxesTok, tokTotal_append]

theorem boxesTok_nil (id : TokenId) : boxesTok id [] = 0 := rfl

theorem boxesTok_cons (id : TokenId) (b : Assets) (bs : List Assets) :
    boxesTok id (b :: bs) = tokTotal id b.toks + boxesTok id bs := by
  simp [boxesTok, tokTotal_append]

theorem toksOk_flatMap {bs : List Assets} (h : ∀ b ∈ bs, AssetsOk b) : ToksOk (bs.flatMap Assets.toks) := by
  intro t ht
  obtain ⟨b, hb, htb⟩ := List.mem_flatMap.1 ht
  exact (h b hb).2.2.2 t htb

/-! ## sorting -/

theorem insertByKey_perm (key : InBox → Nat) (b : InBox) (l : List InBox) : (insertByKey key b l).Perm (b :: l) := by
  induction l with
  | nil => simp [insertByKey]
  | cons c cs ih =>
    rw [insertByKey]
    split
    · exact List.Perm.refl _
    · exact (ih.cons c).trans (List.Perm.swap b c cs)

theorem sortByKey_perm (key : InBox → Nat) (l : List InBox) : (sortByKey key l).Perm l := by
  induction l with
  | nil => simp [sortByKey]
  | cons b bs ih =>
    rw [sortByKey]
    exact (insertByKey_perm key b _).trans (ih.cons b)

end Verif
