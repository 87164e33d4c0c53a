import Verif.Proofs.DerivationPath
import Mathlib.Data.List.Forall2

set_option linter.unusedVariables false

/-! # C39: derivation paths and their text -/

namespace Verif
open Verif.Spec

/-- C39, first half (partial): displaying a path and parsing the text gives the path back — any depth, hardened and normal
indices mixed, the master path included.  Missing: indices with bit 31 set, which `ChildIndexNormal::next` can produce
(`C39_violation_next`). -/
theorem C39_roundtrip_partial (p : DerivationPath) (h : ∀ i ∈ p, ChildIndexInRange i) :
    DerivationPath.fromStr p.display = .ok p := path_roundTrip p h

example : (∀ i ∈ DerivationPath.new 7#32 [0#32, 2147483647#32], ChildIndexInRange i) ∧
    DerivationPath.new 7#32 [0#32, 2147483647#32] =
      [.hardened 44#32, .hardened 429#32, .hardened 7#32, .normal 0#32, .normal 0#32, .normal 2147483647#32] := by decide

/-- The text of a path determines it. -/
theorem C39_injective_partial (p r : DerivationPath) (hp : ∀ i ∈ p, ChildIndexInRange i) (hr : ∀ i ∈ r, ChildIndexInRange i)
    (h : p.display = r.display) : p = r := by
  have h1 := path_roundTrip p hp
  rw [h, path_roundTrip r hr] at h1
  cases h1
  rfl

example : (∀ i ∈ [ChildIndex.hardened 1#32], ChildIndexInRange i) ∧ (∀ i ∈ [ChildIndex.normal 1#32], ChildIndexInRange i) ∧
    DerivationPath.display [.hardened 1#32] ≠ DerivationPath.display [.normal 1#32] := by decide +kernel

/-- Every path that parsing returns has all indices in range, so it prints to a text that parses to it again. -/
theorem C39_parse_stable (s : List Char) (p : DerivationPath) (h : DerivationPath.fromStr s = .ok p) :
    DerivationPath.fromStr p.display = .ok p := by
  apply path_roundTrip
  unfold DerivationPath.fromStr at h
  split at h
  · cases h
  · split at h
    · cases h
    · cases h
      intro i hi
      obtain ⟨q, _, hq⟩ := List.mem_flatMap.1 hi
      split at hq
      · rename_i j hj
        rw [List.mem_singleton.1 hq]
        exact fromStr_inRange hj
      · cases hq

example : DerivationPath.fromStr "M / 44' / 429'".toList = .ok [.hardened 44#32, .hardened 429#32] := by decide +kernel

/-- C39: a text `m/c₁/…/cₙ` (or `M/…`) whose components all denote an index parses to exactly those indices, in order. -/
theorem C39_accepts (master : Char) (hm : master = 'm' ∨ master = 'M') (cs : List (List Char)) (p : DerivationPath) (hne : cs ≠ [])
    (h : List.Forall₂ Denotes cs p) : DerivationPath.fromStr (master :: '/' :: joinSlash cs) = .ok p := by
  have hd : ∀ {c : List Char} {i : ChildIndex}, Denotes c i → ∀ x ∈ c, x ≠ '/' ∧ isWhitespace x = false := by
    rintro c i ⟨ds, _, hd, _, h⟩ x hx
    have had : ∀ x ∈ ds, x ≠ '/' ∧ isWhitespace x = false := by
      intro x hx
      have := hd x hx
      rw [Char.le_def, Char.le_def, UInt32.le_iff_toNat_le, UInt32.le_iff_toNat_le] at this
      exact ⟨digit_ne_slash this, digit_not_ws this⟩
    rcases h with ⟨rfl, _⟩ | ⟨rfl, _⟩
    · exact had x hx
    · rcases List.mem_append.1 hx with hx | hx
      · exact had x hx
      · rw [List.mem_singleton.1 hx]; decide
  have hall : ∀ c ∈ cs, ∀ x ∈ c, x ≠ '/' ∧ isWhitespace x = false := by
    clear hne
    induction h with
    | nil => simp
    | cons h1 _ ih =>
      intro c hc
      rcases List.mem_cons.1 hc with rfl | hc
      · exact hd h1
      · exact ih c hc
  have hws : (master :: '/' :: joinSlash cs).filter (fun c => !isWhitespace c) = [master] ++ '/' :: joinSlash cs := by
    show _ = master :: '/' :: joinSlash cs
    rw [List.filter_eq_self]
    intro x hx
    rcases List.mem_cons.1 hx with rfl | hx
    · rcases hm with rfl | rfl <;> decide
    rcases List.mem_cons.1 hx with rfl | hx
    · decide
    rcases joinSlash_mem hx with rfl | ⟨c, hc, hx⟩
    · decide
    · simp [(hall c hc x hx).2]
  unfold DerivationPath.fromStr
  rw [hws, splitSlash_append _ _ (by rcases hm with rfl | rfl <;> decide),
    splitSlash_join cs hne (fun c hc hs => (hall c hc _ hs).1 rfl)]
  simp only
  rw [if_neg (by rcases hm with rfl | rfl <;> decide)]
  congr 1
  clear hws hall hd hne
  induction h with
  | nil => rfl
  | @cons c i cs is h1 _ ih =>
    show (match ChildIndex.fromStr c with | .ok i => [i] | _ => []) ++ DerivationPath.indices cs = _
    rw [fromStr_denotes h1, ih]
    rfl

/-- Non-trivial case: `m/44'/007` (leading zeros are fine). -/
example : List.Forall₂ Denotes ["44'".toList, "007".toList] [.hardened 44#32, .normal 7#32] :=
  .cons ⟨"44".toList, by decide, by decide, by decide, .inr ⟨rfl, rfl⟩⟩
    (.cons ⟨"007".toList, by decide, by decide, by decide, .inl ⟨rfl, rfl⟩⟩ .nil)

/-- C39, second half (partial): a text is rejected exactly when its part before the first `/` is not `m` or `M` (spaces
apart).  Missing: rejection of invalid components (`C39_violation_dropped`). -/
theorem C39_rejects_partial (s : List Char) :
    DerivationPath.fromStr s = .err ↔ (splitSlash (s.filter fun c => !isWhitespace c)).head? ≠ some ['m'] ∧
      (splitSlash (s.filter fun c => !isWhitespace c)).head? ≠ some ['M'] := by
  unfold DerivationPath.fromStr
  split
  · rename_i h; exact absurd h (splitSlash_ne_nil _)
  · rename_i m ps h
    rw [h]
    simp only [List.head?_cons, ne_eq, Option.some.injEq]
    by_cases h1 : m = ['m'] <;> by_cases h2 : m = ['M'] <;> simp [h1, h2]

/-- How a user can tell that nothing was dropped: the parsed path has at most as many indices as the text has `/`, and exactly
as many iff every component parses. -/
theorem C39_nothing_dropped (s : List Char) (p : DerivationPath) (h : DerivationPath.fromStr s = .ok p) :
    p.length ≤ s.count '/' ∧
    (p.length = s.count '/' ↔ ∀ c ∈ (splitSlash (s.filter fun c => !isWhitespace c)).tail, ∃ i, ChildIndex.fromStr c = .ok i) := by
  have hc : (s.filter fun c => !isWhitespace c).count '/' = s.count '/' :=
    List.count_filter (p := fun c => !isWhitespace c) (by decide)
  unfold DerivationPath.fromStr at h
  have hl := splitSlash_length (s.filter fun c => !isWhitespace c)
  split at h
  · cases h
  · rename_i m ps hs
    split at h
    · cases h
    · cases h
      rw [hs, List.length_cons, hc] at hl
      rw [hs, List.tail_cons, ← indices_length_iff]
      have := indices_length_le ps
      omega

example : DerivationPath.fromStr "m/44'/x/0".toList = .ok [.hardened 44#32, .normal 0#32] ∧ "m/44'/x/0".toList.count '/' = 3 := by
  decide +kernel

/-- C39 fails as stated: an invalid component anywhere in the text is left out without any error — inserting the components
`bad`, none of which parses, does not change the result. -/
theorem C39_violation_dropped (cs bad ds : List (List Char)) (hb : ∀ c ∈ bad, ∀ i, ChildIndex.fromStr c ≠ .ok i) :
    DerivationPath.indices (cs ++ bad ++ ds) = DerivationPath.indices (cs ++ ds) := by
  have : DerivationPath.indices bad = [] := by
    unfold DerivationPath.indices
    rw [List.flatMap_eq_nil_iff]
    intro c hc
    split
    · rename_i i hi; exact absurd hi (hb c hc i)
    · rfl
  unfold DerivationPath.indices at *
  rw [List.flatMap_append, List.flatMap_append, this, List.append_nil, ← List.flatMap_append]

/-- Concretely: mistyped account (`O` for `0`), out of range index and empty components all give the two component path, a
different key. -/
theorem C39_violation_texts :
    DerivationPath.fromStr "m/44'/O'/0".toList = .ok [.hardened 44#32, .normal 0#32] ∧
    DerivationPath.fromStr "m/44'/2147483648'/0".toList = .ok [.hardened 44#32, .normal 0#32] ∧
    DerivationPath.fromStr "m/44'//-1/0/".toList = .ok [.hardened 44#32, .normal 0#32] ∧
    DerivationPath.fromStr "m/44h/0".toList = .ok [.normal 0#32] := by decide +kernel

/-- The component parser also takes texts that are not in the notation: quotes anywhere and several of them, a leading `+`. -/
theorem C39_violation_lenient : ChildIndex.fromStr "'4''4".toList = .ok (.hardened 44#32) ∧
    ChildIndex.fromStr "+7".toList = .ok (.normal 7#32) := by decide +kernel

/-- C39 fails for a path that `DerivationPath::next` returns: the index after 2147483647 is not refused for normal indices, and
the text of the resulting path parses to the master path. -/
theorem C39_violation_next (m : Mode) : DerivationPath.next m [.normal 2147483647#32] = .ok [.normal 2147483648#32] ∧
    DerivationPath.fromStr (DerivationPath.display [.normal 2147483648#32]) = .ok [] := by
  cases m <;> decide +kernel

/-- Blanks in the text do not matter. -/
theorem C39_whitespace (s : List Char) :
    DerivationPath.fromStr (s.filter fun c => !isWhitespace c) = DerivationPath.fromStr s := by
  unfold DerivationPath.fromStr
  rw [List.filter_filter]
  simp only [Bool.and_self]

/-! ## `next` -/

/-- `next` changes the last index only, to its successor of the same kind; hardened indices stay in range. -/
theorem C39_next (m : Mode) (p : DerivationPath) (i : ChildIndex) (p' : DerivationPath)
    (h : DerivationPath.next m (p ++ [i]) = .ok p') :
    ∃ j, p' = p ++ [j] ∧ ((∃ a, i = .hardened a ∧ j = .hardened (a + 1#32) ∧ (a + 1#32).toNat < 2 ^ 31) ∨
      ∃ a, i = .normal a ∧ j = .normal (a + 1#32)) := by
  unfold DerivationPath.next at h
  rw [List.getLast?_concat] at h
  obtain ⟨j, hj, h⟩ := Outcome.bind_eq_ok.1 h
  cases h
  refine ⟨j, by rw [List.dropLast_concat], ?_⟩
  have hinc : ∀ a b, incU32 m a = .ok b → b = a + 1#32 := by
    intro a b h
    unfold incU32 at h
    split at h
    · cases h; rfl
    · cases m
      · cases h
      · cases h; rfl
  cases i with
  | hardened a =>
    obtain ⟨b, hb, hj⟩ := Outcome.bind_eq_ok.1 hj
    have := hinc a b hb
    subst this
    unfold ChildIndex.mkHardened at hj
    split at hj
    · rename_i h31
      cases hj
      exact .inl ⟨a, rfl, rfl, (bit31_iff _).1 h31⟩
    · cases hj
  | normal a =>
    obtain ⟨b, hb, hj⟩ := Outcome.bind_eq_ok.1 hj
    have := hinc a b hb
    subst this
    cases hj
    exact .inr ⟨a, rfl, rfl⟩

example : DerivationPath.next .debug ([.hardened 1#32] ++ [.normal 2#32]) = .ok [.hardened 1#32, .normal 3#32] := by decide
example : DerivationPath.next .debug [.hardened 2147483647#32] = .err := by decide

/-! ## Ledger bytes -/

/-- The ledger message determines a path with indices in range (the first byte is the low byte of the depth). -/
theorem C39_ledger (p r : DerivationPath) (hp : ∀ i ∈ p, ChildIndexInRange i) (hr : ∀ i ∈ r, ChildIndexInRange i)
    (h : p.ledgerBytes = r.ledgerBytes) : p = r := by
  unfold DerivationPath.ledgerBytes at h
  exact ledger_body_inj hp hr (List.cons.inj h).2

example : DerivationPath.ledgerBytes [.hardened 44#32, .normal 258#32] = [2#8, 0x80#8, 0#8, 0#8, 44#8, 0#8, 0#8, 1#8, 2#8] := by
  decide

/-- Out of range normal indices, which `next` returns, collide with hardened ones in the ledger message and in the derivation
input `to_bits`. -/
theorem C39_violation_bits : (ChildIndex.normal 2147483648#32).toBits = (ChildIndex.hardened 0#32).toBits ∧
    DerivationPath.ledgerBytes [.normal 2147483648#32] = DerivationPath.ledgerBytes [.hardened 0#32] := by decide

/-- The length byte is wrong for paths of 256 or more components. -/
theorem C39_violation_depth (p : DerivationPath) (h : p.length = 256) : p.ledgerBytes.head? = some 0#8 := by
  unfold DerivationPath.ledgerBytes
  rw [h]; rfl

example : (List.replicate 256 (ChildIndex.normal 0#32)).length = 256 := List.length_replicate ..

end Verif
