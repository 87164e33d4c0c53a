import Verif.Spec.DerivationPath

set_option linter.unusedVariables false
set_option linter.unusedSimpArgs false

namespace Verif
open Verif.Spec

/-! ## Numbers -/

theorem digitChar_toNat {d : Nat} (h : d < 10) : (digitChar d).toNat = 48 + d := by
  have : ∀ d : Fin 10, (digitChar d.val).toNat = 48 + d.val := by decide
  exact this ⟨d, h⟩

theorem digitVal_digitChar {d : Nat} (h : d < 10) : digitVal (digitChar d) = some d := by
  unfold digitVal
  rw [digitChar_toNat h, if_pos (by omega)]
  congr 1
  omega

/-- All characters of the text are digits. -/
def AllDigits (ds : List Char) : Prop := ∀ c ∈ ds, 48 ≤ c.toNat ∧ c.toNat ≤ 57

theorem decimal_ne_nil (n : Nat) : decimal n ≠ [] := by
  unfold decimal
  split <;> simp

theorem decimal_digits (n : Nat) : AllDigits (decimal n) := by
  induction n using decimal.induct with
  | case1 n h =>
    intro c hc
    unfold decimal at hc
    rw [if_pos h] at hc
    rw [List.mem_singleton.1 hc, digitChar_toNat h]
    omega
  | case2 n h ih =>
    intro c hc
    unfold decimal at hc
    rw [if_neg h, List.mem_append] at hc
    rcases hc with hc | hc
    · exact ih c hc
    · rw [List.mem_singleton.1 hc, digitChar_toNat (Nat.mod_lt _ (by decide))]
      have := Nat.mod_lt n (show 0 < 10 by decide)
      omega

theorem digitsValue_append (a b : List Char) :
    digitsValue (a ++ b) = b.foldl (fun a c => 10 * a + (c.toNat - 48)) (digitsValue a) := by
  unfold digitsValue
  rw [List.foldl_append]

theorem digitsValue_decimal (n : Nat) : digitsValue (decimal n) = n := by
  induction n using decimal.induct with
  | case1 n h =>
    unfold decimal
    rw [if_pos h]
    simp [digitsValue, digitChar_toNat h]
  | case2 n h ih =>
    unfold decimal
    rw [if_neg h, digitsValue_append, ih]
    simp [digitChar_toNat (Nat.mod_lt n (show 0 < 10 by decide))]
    omega

theorem foldl_digits_mono (ds : List Char) (a : Nat) : a ≤ ds.foldl (fun a c => 10 * a + (c.toNat - 48)) a := by
  induction ds generalizing a with
  | nil => exact Nat.le_refl _
  | cons c cs ih =>
    rw [List.foldl_cons]
    have := ih (10 * a + (c.toNat - 48))
    omega

theorem parseDigits_eq (ds : List Char) (acc : Nat) (h : AllDigits ds)
    (hb : ds.foldl (fun a c => 10 * a + (c.toNat - 48)) acc < 2 ^ 32) :
    parseDigits acc ds = some (ds.foldl (fun a c => 10 * a + (c.toNat - 48)) acc) := by
  induction ds generalizing acc with
  | nil => rfl
  | cons c cs ih =>
    rw [List.foldl_cons] at hb ⊢
    have hc := h c (List.mem_cons_self ..)
    have hm := foldl_digits_mono cs (10 * acc + (c.toNat - 48))
    have e : acc * 10 + (c.toNat - 48) = 10 * acc + (c.toNat - 48) := by omega
    unfold parseDigits
    have hd : digitVal c = some (c.toNat - 48) := if_pos hc
    rw [hd]
    simp only [e]
    rw [if_pos (by omega)]
    exact ih _ (fun d hd => h d (List.mem_cons_of_mem _ hd)) hb

theorem digit_ne_plus {c : Char} (h : 48 ≤ c.toNat ∧ c.toNat ≤ 57) : c ≠ '+' := by
  rintro rfl
  revert h; decide

theorem digit_ne_quote {c : Char} (h : 48 ≤ c.toNat ∧ c.toNat ≤ 57) : c ≠ '\'' := by
  rintro rfl
  revert h; decide

theorem digit_ne_slash {c : Char} (h : 48 ≤ c.toNat ∧ c.toNat ≤ 57) : c ≠ '/' := by
  rintro rfl
  revert h; decide

theorem digit_not_ws {c : Char} (h : 48 ≤ c.toNat ∧ c.toNat ≤ 57) : isWhitespace c = false := by
  obtain ⟨h1, h2⟩ := h
  unfold isWhitespace
  generalize c.toNat = n at *
  simp
  omega

theorem parseU32_eq (ds : List Char) (hne : ds ≠ []) (h : AllDigits ds) (hb : digitsValue ds < 2 ^ 32) :
    parseU32 ds = some (BitVec.ofNat 32 (digitsValue ds)) := by
  cases ds with
  | nil => exact absurd rfl hne
  | cons c cs =>
    unfold parseU32
    have hc := digit_ne_plus (h c (List.mem_cons_self ..))
    simp only [if_neg hc]
    rw [if_neg (by simp), parseDigits_eq _ 0 h hb]
    rfl

/-! ## Components -/

theorem no_quote {ds : List Char} (h : AllDigits ds) : '\'' ∉ ds := fun hm => digit_ne_quote (h _ hm) rfl

theorem filter_quote {ds : List Char} (h : AllDigits ds) : ds.filter (· ≠ '\'') = ds := by
  rw [List.filter_eq_self]
  intro c hc
  simpa using digit_ne_quote (h c hc)

theorem bit31_clear {n : Nat} (h : n < 2 ^ 31) : BitVec.ofNat 32 n &&& 0x80000000#32 = 0#32 := by
  apply BitVec.eq_of_getLsbD_eq
  intro i hi
  rw [BitVec.getLsbD_and]
  by_cases h31 : i = 31
  · subst h31
    have : (BitVec.ofNat 32 n).getLsbD 31 = false := by
      rw [BitVec.getLsbD_ofNat]
      simp [Nat.testBit_lt_two_pow h]
    rw [this]; simp
  · have : (0x80000000#32).getLsbD i = false := by
      have : ∀ i : Fin 32, i.val ≠ 31 → (0x80000000#32).getLsbD i.val = false := by decide
      exact this ⟨i, hi⟩ h31
    rw [this]; simp

theorem bit31_iff (i : BitVec 32) : i &&& 0x80000000#32 = 0#32 ↔ i.toNat < 2 ^ 31 := by
  constructor
  · intro h
    have h2 : (i &&& 0x80000000#32).getLsbD 31 = false := by rw [h]; decide
    rw [BitVec.getLsbD_and] at h2
    have h3 : i.getLsbD 31 = false := by simpa using h2
    refine Nat.lt_of_not_le fun hc => ?_
    have := i.isLt
    have h4 : i.toNat.testBit 31 = true := by
      rw [Nat.testBit_eq_decide_div_mod_eq]
      simp
      omega
    rw [BitVec.getLsbD] at h3
    rw [h4] at h3
    cases h3
  · intro h
    have := bit31_clear h
    rwa [BitVec.ofNat_toNat, BitVec.setWidth_eq] at this

theorem fromStr_normal {ds : List Char} (hne : ds ≠ []) (h : AllDigits ds) (hb : digitsValue ds < 2 ^ 31) :
    ChildIndex.fromStr ds = .ok (.normal (BitVec.ofNat 32 (digitsValue ds))) := by
  unfold ChildIndex.fromStr
  rw [if_neg (no_quote h), parseU32_eq ds hne h (by omega)]
  exact if_pos (bit31_clear hb)

theorem fromStr_hardened {ds : List Char} (hne : ds ≠ []) (h : AllDigits ds) (hb : digitsValue ds < 2 ^ 31) :
    ChildIndex.fromStr (ds ++ ['\'']) = .ok (.hardened (BitVec.ofNat 32 (digitsValue ds))) := by
  unfold ChildIndex.fromStr
  rw [if_pos (by simp), List.filter_append, filter_quote h]
  have : List.filter (fun x => decide (x ≠ '\'')) ['\''] = [] := by decide
  rw [this, List.append_nil, parseU32_eq ds hne h (by omega)]
  exact if_pos (bit31_clear hb)

theorem fromStr_display (i : ChildIndex) (h : ChildIndexInRange i) : ChildIndex.fromStr i.display = .ok i := by
  cases i with
  | hardened i =>
    have hr : i.toNat < 2 ^ 31 := h
    unfold ChildIndex.display
    rw [fromStr_hardened (decimal_ne_nil _) (decimal_digits _) (by rw [digitsValue_decimal]; exact hr), digitsValue_decimal,
      BitVec.ofNat_toNat, BitVec.setWidth_eq]
  | normal i =>
    have hr : i.toNat < 2 ^ 31 := h
    unfold ChildIndex.display
    rw [fromStr_normal (decimal_ne_nil _) (decimal_digits _) (by rw [digitsValue_decimal]; exact hr), digitsValue_decimal,
      BitVec.ofNat_toNat, BitVec.setWidth_eq]

theorem fromStr_denotes {s : List Char} {i : ChildIndex} (h : Denotes s i) : ChildIndex.fromStr s = .ok i := by
  obtain ⟨ds, hne, hd, hb, h⟩ := h
  have had : AllDigits ds := by
    intro c hc
    have := hd c hc
    rw [Char.le_def, Char.le_def, UInt32.le_iff_toNat_le, UInt32.le_iff_toNat_le] at this
    exact this
  rcases h with ⟨rfl, rfl⟩ | ⟨rfl, rfl⟩
  · exact fromStr_normal hne had hb
  · exact fromStr_hardened hne had hb

theorem fromStr_inRange {s : List Char} {i : ChildIndex} (h : ChildIndex.fromStr s = .ok i) : ChildIndexInRange i := by
  unfold ChildIndex.fromStr at h
  split at h
  · split at h
    · cases h
    · unfold ChildIndex.mkHardened at h
      split at h
      · rename_i h31
        cases h
        exact (bit31_iff _).1 h31
      · cases h
  · split at h
    · cases h
    · unfold ChildIndex.mkNormal at h
      split at h
      · rename_i h31
        cases h
        exact (bit31_iff _).1 h31
      · cases h

/-! ## Splitting -/

theorem splitSlash_ne_nil (s : List Char) : splitSlash s ≠ [] := by
  cases s with
  | nil => simp [splitSlash]
  | cons c cs =>
    unfold splitSlash
    split
    · simp
    · split <;> simp

theorem splitSlash_append (p s : List Char) (h : '/' ∉ p) : splitSlash (p ++ '/' :: s) = p :: splitSlash s := by
  induction p with
  | nil =>
    show splitSlash ('/' :: s) = _
    rw [splitSlash]
    split
    · rename_i h'; exact absurd h' (splitSlash_ne_nil s)
    · rename_i q qs h'; rw [if_pos rfl, h']
  | cons c cs ih =>
    rw [List.cons_append, splitSlash, ih (fun hm => h (List.mem_cons_of_mem _ hm))]
    simp only
    rw [if_neg (fun hc : c = '/' => h (hc ▸ List.mem_cons_self ..))]

theorem splitSlash_single (p : List Char) (h : '/' ∉ p) : splitSlash p = [p] := by
  induction p with
  | nil => rfl
  | cons c cs ih =>
    rw [splitSlash, ih (fun hm => h (List.mem_cons_of_mem _ hm))]
    simp only
    rw [if_neg (fun hc : c = '/' => h (hc ▸ List.mem_cons_self ..))]

theorem splitSlash_join (ps : List (List Char)) (hne : ps ≠ []) (h : ∀ p ∈ ps, '/' ∉ p) : splitSlash (joinSlash ps) = ps := by
  induction ps with
  | nil => exact absurd rfl hne
  | cons p ps ih =>
    cases ps with
    | nil => exact splitSlash_single p (h p (List.mem_cons_self ..))
    | cons q qs =>
      rw [joinSlash, splitSlash_append _ _ (h p (List.mem_cons_self ..)), ih (by simp)
        (fun r hr => h r (List.mem_cons_of_mem _ hr))]

theorem splitSlash_length (s : List Char) : (splitSlash s).length = s.count '/' + 1 := by
  induction s with
  | nil => rfl
  | cons c cs ih =>
    unfold splitSlash
    split
    · rename_i h; exact absurd h (splitSlash_ne_nil cs)
    · rename_i p ps h
      rw [h] at ih
      by_cases hc : c = '/'
      · subst hc
        rw [if_pos rfl, List.count_cons_self]
        simpa using ih
      · rw [if_neg hc, List.count_cons_of_ne (fun h => hc h)]
        simpa using ih

theorem splitSlash_mem (s : List Char) : ∀ p ∈ splitSlash s, '/' ∉ p ∧ ∀ c ∈ p, c ∈ s := by
  induction s with
  | nil => simp [splitSlash]
  | cons c cs ih =>
    unfold splitSlash
    split
    · rename_i h; exact absurd h (splitSlash_ne_nil cs)
    · rename_i q qs h
      rw [h] at ih
      by_cases hc : c = '/'
      · subst hc
        rw [if_pos rfl]
        intro p hp
        rcases List.mem_cons.1 hp with rfl | hp
        · simp
        · exact ⟨(ih p hp).1, fun d hd => List.mem_cons_of_mem _ ((ih p hp).2 d hd)⟩
      · rw [if_neg hc]
        intro p hp
        rcases List.mem_cons.1 hp with rfl | hp
        · have hq := ih q (List.mem_cons_self ..)
          refine ⟨?_, ?_⟩
          · rw [List.mem_cons]
            rintro (h' | h')
            · exact hc h'.symm
            · exact hq.1 h'
          · intro d hd
            rcases List.mem_cons.1 hd with rfl | hd
            · exact List.mem_cons_self ..
            · exact List.mem_cons_of_mem _ (hq.2 d hd)
        · have hq := ih p (List.mem_cons_of_mem _ hp)
          exact ⟨hq.1, fun d hd => List.mem_cons_of_mem _ (hq.2 d hd)⟩

theorem joinSlash_split (s : List Char) : joinSlash (splitSlash s) = s := by
  induction s with
  | nil => rfl
  | cons c cs ih =>
    unfold splitSlash
    split
    · rename_i h; exact absurd h (splitSlash_ne_nil cs)
    · rename_i p ps h
      rw [h] at ih
      by_cases hc : c = '/'
      · subst hc
        rw [if_pos rfl, joinSlash, ih]
        rfl
      · rw [if_neg hc]
        cases ps with
        | nil => rw [joinSlash] at ih ⊢; rw [ih]
        | cons q qs => rw [joinSlash] at ih ⊢; rw [List.cons_append, ih]

/-! ## Paths -/

theorem display_chars (i : ChildIndex) : ∀ c ∈ i.display, c ≠ '/' ∧ isWhitespace c = false := by
  intro c hc
  have hd : ∀ n, ∀ c ∈ decimal n, c ≠ '/' ∧ isWhitespace c = false := fun n c hc =>
    ⟨digit_ne_slash (decimal_digits n c hc), digit_not_ws (decimal_digits n c hc)⟩
  cases i with
  | hardened i =>
    unfold ChildIndex.display at hc
    rw [List.mem_append, List.mem_singleton] at hc
    rcases hc with hc | rfl
    · exact hd _ c hc
    · decide
  | normal i => exact hd _ c hc

theorem joinSlash_mem {ps : List (List Char)} {c : Char} (h : c ∈ joinSlash ps) : c = '/' ∨ ∃ p ∈ ps, c ∈ p := by
  induction ps with
  | nil => cases h
  | cons p ps ih =>
    cases ps with
    | nil => exact .inr ⟨p, List.mem_cons_self .., h⟩
    | cons q qs =>
      rw [joinSlash, List.mem_append, List.mem_cons] at h
      rcases h with h | h | h
      · exact .inr ⟨p, List.mem_cons_self .., h⟩
      · exact .inl h
      · rcases ih h with h | ⟨r, hr, hc⟩
        · exact .inl h
        · exact .inr ⟨r, List.mem_cons_of_mem _ hr, hc⟩

theorem path_display_noWs (p : DerivationPath) : p.display.filter (fun c => !isWhitespace c) = p.display := by
  rw [List.filter_eq_self]
  intro c hc
  unfold DerivationPath.display at hc
  rcases List.mem_cons.1 hc with rfl | hc
  · decide
  rcases List.mem_cons.1 hc with rfl | hc
  · decide
  rcases joinSlash_mem hc with rfl | ⟨q, hq, hc⟩
  · decide
  · obtain ⟨i, _, rfl⟩ := List.mem_map.1 hq
    simp [(display_chars i c hc).2]

theorem splitSlash_display (p : DerivationPath) :
    splitSlash p.display = ['m'] :: (if p = [] then [[]] else p.map ChildIndex.display) := by
  unfold DerivationPath.display
  rw [show 'm' :: '/' :: joinSlash (p.map ChildIndex.display) = ['m'] ++ '/' :: joinSlash (p.map ChildIndex.display) from rfl,
    splitSlash_append _ _ (by decide)]
  congr 1
  cases p with
  | nil => rfl
  | cons i is =>
    rw [if_neg (by simp)]
    apply splitSlash_join _ (by simp)
    intro q hq hs
    obtain ⟨j, _, rfl⟩ := List.mem_map.1 hq
    exact (display_chars j '/' hs).1 rfl

theorem indices_map (p : DerivationPath) (h : ∀ i ∈ p, ChildIndexInRange i) :
    DerivationPath.indices (p.map ChildIndex.display) = p := by
  induction p with
  | nil => rfl
  | cons i is ih =>
    show (match ChildIndex.fromStr i.display with | .ok i => [i] | _ => []) ++ DerivationPath.indices (is.map _) = _
    rw [fromStr_display i (h i (List.mem_cons_self ..)), ih (fun j hj => h j (List.mem_cons_of_mem _ hj))]
    rfl

theorem path_roundTrip (p : DerivationPath) (h : ∀ i ∈ p, ChildIndexInRange i) :
    DerivationPath.fromStr p.display = .ok p := by
  unfold DerivationPath.fromStr
  rw [path_display_noWs, splitSlash_display]
  simp only
  rw [if_neg (by decide)]
  split
  · rename_i hp; subst hp; decide
  · rw [indices_map p h]

theorem indices_length_le (ps : List (List Char)) : (DerivationPath.indices ps).length ≤ ps.length := by
  induction ps with
  | nil => exact Nat.le_refl _
  | cons p ps ih =>
    show ((match ChildIndex.fromStr p with | .ok i => [i] | _ => []) ++ DerivationPath.indices ps).length ≤ _
    rw [List.length_append]
    split <;> simp <;> omega

theorem indices_length_iff (ps : List (List Char)) :
    (DerivationPath.indices ps).length = ps.length ↔ ∀ p ∈ ps, ∃ i, ChildIndex.fromStr p = .ok i := by
  induction ps with
  | nil => simp [DerivationPath.indices]
  | cons p ps ih =>
    show ((match ChildIndex.fromStr p with | .ok i => [i] | _ => []) ++ DerivationPath.indices ps).length = _ ↔ _
    have hle := indices_length_le ps
    rw [List.length_append, List.forall_mem_cons, ← ih]
    cases h : ChildIndex.fromStr p with
    | ok i => simp; omega
    | err => simp; omega
    | panic => simp; omega

/-! ## Ledger bytes -/

theorem be4_inj {a b : BitVec 32} (h3 : a.extractLsb' 24 8 = b.extractLsb' 24 8) (h2 : a.extractLsb' 16 8 = b.extractLsb' 16 8)
    (h1 : a.extractLsb' 8 8 = b.extractLsb' 8 8) (h0 : a.extractLsb' 0 8 = b.extractLsb' 0 8) : a = b := by
  apply BitVec.eq_of_getLsbD_eq
  intro i hi
  have key : ∀ s, a.extractLsb' s 8 = b.extractLsb' s 8 → ∀ j, j < 8 → a.getLsbD (s + j) = b.getLsbD (s + j) := by
    intro s hs j hj
    have := congrArg (fun v => v.getLsbD j) hs
    simpa [BitVec.getLsbD_extractLsb', hj] using this
  by_cases c3 : 24 ≤ i
  · have := key 24 h3 (i - 24) (by omega)
    rwa [show 24 + (i - 24) = i by omega] at this
  by_cases c2 : 16 ≤ i
  · have := key 16 h2 (i - 16) (by omega)
    rwa [show 16 + (i - 16) = i by omega] at this
  by_cases c1 : 8 ≤ i
  · have := key 8 h1 (i - 8) (by omega)
    rwa [show 8 + (i - 8) = i by omega] at this
  · have := key 0 h0 i (by omega)
    rwa [Nat.zero_add] at this

theorem toBits_inj {i j : ChildIndex} (hi : ChildIndexInRange i) (hj : ChildIndexInRange j) (h : i.toBits = j.toBits) : i = j := by
  have hlow : ∀ {a b : BitVec 32}, a.toNat < 2 ^ 31 → b.toNat < 2 ^ 31 → (0x80000000#32 ||| a) = (0x80000000#32 ||| b) → a = b := by
    intro a b ha hb h
    apply BitVec.eq_of_getLsbD_eq
    intro k hk
    have := congrArg (fun v => v.getLsbD k) h
    simp only [BitVec.getLsbD_or] at this
    by_cases h31 : k = 31
    · subst h31
      rw [BitVec.getLsbD, BitVec.getLsbD, Nat.testBit_lt_two_pow ha, Nat.testBit_lt_two_pow hb]
    · have hz : (0x80000000#32).getLsbD k = false := by
        have : ∀ i : Fin 32, i.val ≠ 31 → (0x80000000#32).getLsbD i.val = false := by decide
        exact this ⟨k, hk⟩ h31
      simpa [hz] using this
  have hmix : ∀ {a b : BitVec 32}, b.toNat < 2 ^ 31 → (0x80000000#32 ||| a) = b → False := by
    intro a b hb h
    have := congrArg (fun v => v.getLsbD 31) h
    simp only [BitVec.getLsbD_or] at this
    rw [show (0x80000000#32).getLsbD 31 = true from by decide, Bool.true_or, BitVec.getLsbD, Nat.testBit_lt_two_pow hb] at this
    cases this
  cases i with
  | hardened a =>
    cases j with
    | hardened b => exact congrArg _ (hlow hi hj h)
    | normal b => exact (hmix hj h).elim
  | normal a =>
    cases j with
    | hardened b => exact (hmix hi h.symm).elim
    | normal b => exact congrArg _ h

theorem ledger_body_inj {p r : DerivationPath} (hp : ∀ i ∈ p, ChildIndexInRange i) (hr : ∀ i ∈ r, ChildIndexInRange i)
    (h : (p.flatMap fun i => let b := i.toBits
        [b.extractLsb' 24 8, b.extractLsb' 16 8, b.extractLsb' 8 8, b.extractLsb' 0 8]) =
      r.flatMap fun i => let b := i.toBits
        [b.extractLsb' 24 8, b.extractLsb' 16 8, b.extractLsb' 8 8, b.extractLsb' 0 8]) : p = r := by
  induction p generalizing r with
  | nil =>
    cases r with
    | nil => rfl
    | cons j js => simp at h
  | cons i is ih =>
    cases r with
    | nil => simp at h
    | cons j js =>
      simp only [List.flatMap_cons, List.cons_append, List.nil_append, List.cons.injEq] at h
      obtain ⟨h3, h2, h1, h0, ht⟩ := h
      have e := toBits_inj (hp i (List.mem_cons_self ..)) (hr j (List.mem_cons_self ..)) (be4_inj h3 h2 h1 h0)
      rw [e, ih (fun k hk => hp k (List.mem_cons_of_mem _ hk)) (fun k hk => hr k (List.mem_cons_of_mem _ hk)) ht]

end Verif
