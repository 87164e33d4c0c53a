import Verif.Proofs.Mnemonic

/-!
# C79: a mnemonic phrase encodes its entropy as BIP-39 prescribes
-/

set_option linter.unusedSimpArgs false
set_option linter.unusedVariables false

namespace Verif
open Mnemonic Spec

theorem entropyLens_eq : entropyLens = [16, 20, 24, 28, 32] := rfl

/-- `bip39_delimiter` with the separator of the model. -/
theorem bip39_delimiter (sha : HashFn) (l : Language) (e : Bytes) (p : Chars) :
    fromEntropy sha l e = .ok p ↔ Bip39.decode sha l.words l.delimiter p = some e := by
  obtain ⟨hw, hnd, hdel⟩ := words_facts l
  have hmem : ∀ ix : List Nat, (∀ i ∈ ix, i < 2048) → ∀ w ∈ ix.map (fun i => l.words.getD i []), w ∈ l.words := by
    intro ix hix w hwm
    obtain ⟨i, hi, rfl⟩ := List.mem_map.1 hwm
    have : i < l.words.length := by rw [hw]; exact hix i hi
    simp only [List.getD_eq_getElem?_getD, List.getElem?_eq_getElem this, Option.getD_some]
    exact List.getElem_mem this
  constructor
  · intro h
    have hlen : e.length ∈ entropyLens := by
      refine Decidable.byContradiction fun hc => ?_
      simp [fromEntropy, hc] at h
    obtain ⟨ix, h1, h2, h3⟩ := entropy_indices sha e hlen
    rw [fromEntropy_ok sha l e ix hlen h2 h3] at h
    cases h
    have hl' : e.length = 16 ∨ e.length = 20 ∨ e.length = 24 ∨ e.length = 28 ∨ e.length = 32 := by
      simpa [entropyLens, strengths] using hlen
    have hne : ix.map (fun i => l.words.getD i []) ≠ [] := by
      intro hc
      have := congrArg List.length hc
      rw [List.length_map, h1] at this
      simp only [List.length_nil] at this
      omega
    rw [Bip39.decode, split_join _ _ hne (fun w hwm => hdel w (hmem ix h2 w hwm)), findAll_map _ hw hnd ix h2]
    simp only [Option.bind_some]
    rw [if_pos (by simp only [List.mem_cons, List.not_mem_nil, or_false]; omega)]
    have hn : ix.length / 3 * 4 = e.length := by omega
    rw [hn, h3, toBytes_bytesBits, List.drop_append, List.drop_eq_nil_of_le (by rw [bytesBits_length]; omega), bytesBits_length]
    simp
  · intro h
    rw [Bip39.decode, Option.bind_eq_some_iff] at h
    obtain ⟨ix, hf, h⟩ := h
    obtain ⟨hlt, hsp⟩ := findAll_some _ hw _ _ hf
    split at h
    case isFalse => exact absurd h (by simp)
    rename_i hcount
    simp only at h
    split at h
    case isFalse => exact absurd h (by simp)
    rename_i hcs
    cases h
    have hl : (ix.flatMap (Bip39.bits 11)).length = 11 * ix.length := flatMap_bits_length ix
    have hc' : ix.length = 12 ∨ ix.length = 15 ∨ ix.length = 18 ∨ ix.length = 21 ∨ ix.length = 24 := by simpa using hcount
    have hbits := bytesBits_toBytes (ix.length / 3 * 4) (ix.flatMap (Bip39.bits 11)) (by omega)
    have hlen : (Bip39.toBytes (ix.length / 3 * 4) (ix.flatMap (Bip39.bits 11))).length ∈ entropyLens := by
      rw [toBytes_length, entropyLens_eq]
      simp only [List.mem_cons, List.not_mem_nil, or_false]
      omega
    rw [fromEntropy_ok sha l _ ix hlen hlt (by
      rw [hbits, toBytes_length, ← hcs, List.take_append_drop]), ← hsp, join_split]

/-- C79: the generator gives a phrase exactly for entropies of 16, 20, 24, 28 or 32 bytes, refuses all others and never panics. -/
theorem C79_total (sha : HashFn) (l : Language) (e : Bytes) :
    ((∃ p, fromEntropy sha l e = .ok p) ↔ e.length ∈ [16, 20, 24, 28, 32]) ∧ fromEntropy sha l e ≠ .panic := by
  by_cases h : e.length ∈ entropyLens
  · obtain ⟨ix, h1, h2, h3⟩ := entropy_indices sha e h
    rw [fromEntropy_ok sha l e ix h h2 h3]
    exact ⟨⟨fun _ => h, fun _ => ⟨_, rfl⟩⟩, by simp⟩
  · have h' : e.length ∉ [16, 20, 24, 28, 32] := h
    simp only [fromEntropy, if_neg h]
    exact ⟨⟨fun ⟨p, hp⟩ => by simp at hp, fun hc => absurd hc h'⟩, by simp⟩

/-- C79: a phrase is the phrase of an entropy iff reading it as BIP-39 prescribes gives the entropy, for all languages and hash
functions.  In particular the entropy can be recovered from the phrase, and every phrase with known words, an allowed number of them
and a right checksum is the phrase of some entropy. -/
theorem C79_bip39 (sha : HashFn) (l : Language) (e : Bytes) (p : Chars) :
    fromEntropy sha l e = .ok p ↔ Bip39.decode sha l.words (Bip39.separator (decide (l = .japanese))) p = some e := by
  have : Bip39.separator (decide (l = .japanese)) = l.delimiter := by cases l <;> rfl
  rw [this]
  exact bip39_delimiter sha l e p

/-- C79: three words for every four bytes, all of them words of the list. -/
theorem C79_words (sha : HashFn) (l : Language) (e : Bytes) (p : Chars) (h : fromEntropy sha l e = .ok p) :
    (Bip39.split l.delimiter p).length = e.length / 4 * 3 ∧ ∀ w ∈ Bip39.split l.delimiter p, w ∈ l.words := by
  obtain ⟨hw, hnd, hdel⟩ := words_facts l
  rw [bip39_delimiter, Bip39.decode, Option.bind_eq_some_iff] at h
  obtain ⟨ix, hf, h⟩ := h
  obtain ⟨hlt, hsp⟩ := findAll_some _ hw _ _ hf
  split at h
  case isFalse => exact absurd h (by simp)
  rename_i hcount
  have hc' : ix.length = 12 ∨ ix.length = 15 ∨ ix.length = 18 ∨ ix.length = 21 ∨ ix.length = 24 := by simpa using hcount
  simp only at h
  split at h
  case isFalse => exact absurd h (by simp)
  cases h
  refine ⟨?_, ?_⟩
  · rw [hsp, List.length_map, toBytes_length]
    omega
  · rw [hsp]
    intro w hwm
    obtain ⟨i, hi, rfl⟩ := List.mem_map.1 hwm
    have : i < l.words.length := by rw [hw]; exact hlt i hi
    simp only [List.getD_eq_getElem?_getD, List.getElem?_eq_getElem this, Option.getD_some]
    exact List.getElem_mem this

/-- C79: different entropies have different phrases. -/
theorem C79_injective (sha : HashFn) (l : Language) (e e' : Bytes) (p : Chars)
    (h : fromEntropy sha l e = .ok p) (h' : fromEntropy sha l e' = .ok p) : e = e' := by
  rw [bip39_delimiter] at h h'
  rw [h] at h'
  cases h'
  rfl

/-- C79: `generate` succeeds exactly for the five strengths; the phrase then encodes the random bytes it drew, as many as the strength
says. -/
theorem C79_generate (sha : HashFn) (rnd : Nat → Bytes) (hr : ∀ n, (rnd n).length = n) (l : Language) (s : Nat) :
    (s ∈ [128, 160, 192, 224, 256] →
      ∃ p, generate sha rnd l s = .ok p ∧ Bip39.decode sha l.words l.delimiter p = some (rnd (s / 8))) ∧
    (s ∉ [128, 160, 192, 224, 256] → generate sha rnd l s = .err) := by
  constructor
  · intro hs
    have hlen : (rnd (s / 8)).length ∈ [16, 20, 24, 28, 32] := by
      rw [hr]
      simp only [List.mem_cons, List.not_mem_nil, or_false] at hs ⊢
      omega
    obtain ⟨p, hp⟩ := (C79_total sha l (rnd (s / 8))).1.2 hlen
    refine ⟨p, ?_, (bip39_delimiter _ _ _ _).1 hp⟩
    rw [generate, if_pos (show s ∈ strengths from hs), hp]
  · intro hs
    rw [generate, if_neg (show ¬ s ∈ strengths from hs)]

/-- C79: every list has 2048 distinct words, in none of which the delimiter occurs. -/
theorem C79_lists (l : Language) :
    l.words.length = 2048 ∧ l.words.Nodup ∧ ∀ w ∈ l.words, l.delimiter ∉ w :=
  ⟨(words_facts l).1, (words_facts l).2.1, fun w hw hd => (words_facts l).2.2 w hw _ hd rfl⟩

/-- The names of the languages are read back, and nothing else is. -/
theorem C79_language (l : Language) (s : List Char) : Language.parse s = some l ↔ s = l.text := by
  constructor
  · intro h
    simp only [Language.parse] at h
    split at h
    · rename_i e; cases h; exact e
    split at h
    · rename_i e; cases h; exact e
    split at h
    · rename_i e; cases h; exact e
    split at h
    · rename_i e; cases h; exact e
    split at h
    · rename_i e; cases h; exact e
    split at h
    · rename_i e; cases h; exact e
    split at h
    · rename_i e; cases h; exact e
    split at h
    · rename_i e; cases h; exact e
    · cases h
  · rintro rfl
    cases l <;> decide

/-- A character that can stand in a word: not a control character, space, digit or sign, nor one of the characters without a shape
that text files begin with or that separate words. -/
def IsWordChar (c : Nat) : Prop := 0x61 ≤ c ∧ c ≠ 0x3000 ∧ c ≠ 0xfeff

theorem isWordChar_of {c : Nat} (h : wordChar c = true) : IsWordChar c := by
  simp only [wordChar, Bool.and_eq_true, Bool.not_eq_true'] at h
  exact ⟨Nat.le_of_ble_eq_true h.1.1, Nat.ne_of_beq_eq_false h.1.2, Nat.ne_of_beq_eq_false h.2⟩

/-- C79: the phrases of all languages but French consist of word characters and delimiters. -/
theorem C79_characters_partial (sha : HashFn) (l : Language) (hl : l ≠ .french) (e : Bytes) (p : Chars)
    (h : fromEntropy sha l e = .ok p) : ∀ w ∈ Bip39.split l.delimiter p, ∀ c ∈ w, IsWordChar c := by
  intro w hw c hcw
  have h1 := (C79_words sha l e p h).2 w hw
  have hm : l.mark = false := by cases l <;> first | rfl | exact absurd rfl hl
  have h2 := words_chars l
  rw [hm] at h2
  exact isWordChar_of (h2 w (by simpa using h1) c hcw)

theorem french_words : ∃ t, Language.words .french = (0xfeff :: abaisser) :: t ∧ abaisser ∉ t := by
  obtain ⟨h1, h3⟩ := french_check
  obtain ⟨t, e⟩ := List.head?_eq_some_iff.1 h1
  refine ⟨t, e, fun hm => ?_⟩
  rw [e] at h3
  simp only [List.all_eq_true] at h3
  simpa using h3 abaisser (by simp [hm])

/-- C79, negation: the file of the French list begins with the mark U+FEFF, which stays part of the first word.  A French phrase has
this mark wherever the word `abaisser` belongs, and the word as everybody else writes it is not in the list: for every hash function,
16 zero bytes give a phrase that begins with the mark, no phrase that is generated has the word `abaisser`, and a phrase with that
word cannot be read. -/
theorem C79_french_violates (sha : HashFn) :
    (∃ p, fromEntropy sha .french (List.replicate 16 0) = .ok (0xfeff :: p)) ∧
    (∀ e p, fromEntropy sha .french e = .ok p → abaisser ∉ Bip39.split 32 p) ∧
    ∀ p, abaisser ∈ Bip39.split 32 p → Bip39.decode sha (Language.words .french) 32 p = none := by
  obtain ⟨t, ht, hab⟩ := french_words
  have hno : abaisser ∉ Language.words .french := by
    rw [ht]
    simp only [List.mem_cons, not_or]
    exact ⟨by decide, hab⟩
  have h2 : ∀ e p, fromEntropy sha .french e = .ok p → abaisser ∉ Bip39.split 32 p :=
    fun e p h hm => hno ((C79_words sha .french e p h).2 _ hm)
  refine ⟨?_, h2, ?_⟩
  · obtain ⟨ix, h1, hlt, h3⟩ := entropy_indices sha (List.replicate 16 0) (by decide)
    rw [fromEntropy_ok sha .french _ ix (by decide) hlt h3]
    obtain ⟨i, j, ix, rfl⟩ : ∃ i j r, ix = i :: j :: r := by
      match ix, h1 with
      | i :: j :: r, _ => exact ⟨i, j, r, rfl⟩
      | [i], h1 => simp at h1
      | [], h1 => simp at h1
    have hb := congrArg (List.take 11) h3
    rw [List.flatMap_cons, List.take_append_of_le_length (by rw [bits_length]; omega), List.take_of_length_le (by rw [bits_length]; omega),
      List.take_append_of_le_length (by rw [bytesBits_length, List.length_replicate]; omega)] at hb
    have hi : i = 0 := by
      have := congrArg Bip39.number hb
      rw [number_bits, Nat.mod_eq_of_lt (hlt i (by simp))] at this
      rw [this]
      decide
    subst hi
    have hg : (Language.words .french).getD 0 [] = 0xfeff :: abaisser := by rw [ht]; rfl
    rw [List.map_cons, List.map_cons, join, hg]
    exact ⟨_, rfl⟩
  · intro p hm
    cases he : Bip39.decode sha (Language.words .french) 32 p with
    | none => rfl
    | some e => exact absurd hm (h2 e p ((bip39_delimiter sha .french e p).2 he))

/-- Hypotheses of C79: a phrase for the toy hash; its first word is the word of the first eleven bits. -/
example : (List.replicate 16 (0xff : Byte)).length ∈ [16, 20, 24, 28, 32] := by decide

set_option maxRecDepth 100000 in
/-- A run: all bits set give `zoo` eleven times and a last word that depends on the hash (here a hash that repeats the input). -/
example : fromEntropy toyHash .english (List.replicate 16 0xff) =
    .ok (join 32 (List.replicate 12 [0x7a, 0x6f, 0x6f])) := by decide +kernel

end Verif
