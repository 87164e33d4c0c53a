import Verif.Model.Mnemonic

/-!
# Facts about the word lists: 2048 distinct words without delimiters

The lists are data; the checks below are evaluated by the kernel, lemmas lift them to the statements used elsewhere.
-/

namespace Verif.Mnemonic

/-- A word as one number. -/
def wordKey (w : Chars) : Nat := w.foldl (fun k c => k * 65536 + c) 1

/-- A character that can stand in a word: not a control character, space, digit or sign, nor one of the characters without a shape
that text files begin with or that separate words. -/
def wordChar (c : Nat) : Bool := Nat.ble 0x61 c && !(Nat.beq c 0x3000) && !(Nat.beq c 0xfeff)

/-- One pass over a list: `k` words, their residues modulo `m` pairwise distinct and not yet marked in `mask`, all characters word
characters; with `mark`, the first word may hold the mark U+FEFF. -/
def scan (m : Nat) : List Chars → Nat → Nat → Bool → Bool
  | [], _, k, _ => Nat.beq k 0
  | w :: ws, mask, k, mark =>
    w.all (fun c => wordChar c || (mark && Nat.beq c 0xfeff)) &&
    (!(Nat.beq ((mask >>> (wordKey w % m)) % 2) 1) &&
     (!(Nat.beq k 0) && scan m ws (mask ||| (1 <<< (wordKey w % m))) (k - 1) false))

theorem scan_sound (m : Nat) : ∀ (ws : List Chars) (mask k : Nat) (mark : Bool), scan m ws mask k mark = true →
    ws.length = k ∧ ws.Nodup ∧ (∀ w ∈ ws, mask.testBit (wordKey w % m) = false) ∧
    (∀ w ∈ ws, ∀ c ∈ w, wordChar c = true ∨ c = 0xfeff) ∧
    (∀ w ∈ ws.drop mark.toNat, ∀ c ∈ w, wordChar c = true) := by
  intro ws
  induction ws with
  | nil => intro mask k mark h; simp only [scan] at h; simp [(Nat.eq_of_beq_eq_true h).symm]
  | cons w ws ih =>
    intro mask k mark h
    simp only [scan, Bool.and_eq_true, Bool.not_eq_true'] at h
    obtain ⟨hc, hb, hk, h⟩ := h
    obtain ⟨hl, hn, hm, hw1, hw2⟩ := ih _ _ _ h
    have hk0 : k ≠ 0 := fun e => by simp [e] at hk
    have hbit : mask.testBit (wordKey w % m) = false := by
      rw [Nat.testBit_eq_decide_div_mod_eq, ← Nat.shiftRight_eq_div_pow]
      simp only [decide_eq_false_iff_not]
      exact Nat.ne_of_beq_eq_false hb
    simp only [List.all_eq_true, Bool.or_eq_true, Bool.and_eq_true] at hc
    refine ⟨by simp only [List.length_cons]; omega, List.nodup_cons.2 ⟨fun hw => ?_, hn⟩, ?_, ?_, ?_⟩
    · have h1 := hm w hw
      rw [Nat.testBit_or, Nat.one_shiftLeft, Nat.testBit_two_pow_self] at h1
      simp at h1
    · intro v hv
      rcases List.mem_cons.1 hv with rfl | hv
      · exact hbit
      · have h1 := hm v hv
        rw [Nat.testBit_or] at h1
        simp only [Bool.or_eq_false_iff] at h1
        exact h1.1
    · intro v hv c hcv
      rcases List.mem_cons.1 hv with rfl | hv
      · rcases hc c hcv with h1 | h1
        · exact .inl h1
        · exact .inr (Nat.eq_of_beq_eq_true h1.2)
      · exact hw1 v hv c hcv
    · cases mark with
      | true => simpa using hw2
      | false =>
        intro v hv c hcv
        rcases List.mem_cons.1 (by simpa using hv : v ∈ w :: ws) with rfl | hv
        · rcases hc c hcv with h1 | h1
          · exact h1
          · simp at h1
        · exact hw2 v (by simpa using hv) c hcv

/-- A modulus under which the words of a language are distinct. -/
def Language.modulus : Language → Nat
  | .chineseSimplified => 100001
  | .chineseTraditional => 100001
  | .english => 207299
  | .french => 211263
  | .italian => 219405
  | .japanese => 217509
  | .korean => 209677
  | .spanish => 237783

/-- The file of the French list begins with the mark U+FEFF. -/
def Language.mark : Language → Bool
  | .french => true
  | _ => false

/-- The whole check of one language. -/
def Language.check (l : Language) : Bool := scan l.modulus l.words 0 2048 l.mark

set_option maxRecDepth 100000 in
theorem check_chineseSimplified : Language.check .chineseSimplified = true := by decide +kernel
set_option maxRecDepth 100000 in
theorem check_chineseTraditional : Language.check .chineseTraditional = true := by decide +kernel
set_option maxRecDepth 100000 in
theorem check_english : Language.check .english = true := by decide +kernel
set_option maxRecDepth 100000 in
theorem check_french : Language.check .french = true := by decide +kernel
set_option maxRecDepth 100000 in
theorem check_italian : Language.check .italian = true := by decide +kernel
set_option maxRecDepth 100000 in
theorem check_japanese : Language.check .japanese = true := by decide +kernel
set_option maxRecDepth 100000 in
theorem check_korean : Language.check .korean = true := by decide +kernel
set_option maxRecDepth 100000 in
theorem check_spanish : Language.check .spanish = true := by decide +kernel

theorem check_all (l : Language) : l.check = true := by
  cases l
  · exact check_chineseSimplified
  · exact check_chineseTraditional
  · exact check_english
  · exact check_french
  · exact check_italian
  · exact check_japanese
  · exact check_korean
  · exact check_spanish

theorem words_facts (l : Language) :
    l.words.length = 2048 ∧ l.words.Nodup ∧ ∀ w ∈ l.words, ∀ c ∈ w, c ≠ l.delimiter := by
  obtain ⟨h1, h2, -, h3, -⟩ := scan_sound _ _ _ _ _ (check_all l)
  refine ⟨h1, h2, fun w hw c hc hd => ?_⟩
  rcases h3 w hw c hc with h4 | h4
  · subst hd
    cases l <;> exact absurd h4 (by decide)
  · subst hd
    cases l <;> exact absurd h4 (by decide)

theorem words_chars (l : Language) : ∀ w ∈ l.words.drop l.mark.toNat, ∀ c ∈ w, wordChar c = true :=
  (scan_sound _ _ _ _ _ (check_all l)).2.2.2.2

/-- The text `abaisser`, the first word of the French list. -/
def abaisser : Chars := [0x61, 0x62, 0x61, 0x69, 0x73, 0x73, 0x65, 0x72]

set_option maxRecDepth 100000 in
theorem french_check : (Language.words .french).head? = some (0xfeff :: abaisser) ∧
    (Language.words .french).all (fun w => !(w == abaisser)) = true := by
  decide +kernel

end Verif.Mnemonic
