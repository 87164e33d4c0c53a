import Verif.Proofs.WordLists
import Verif.Spec.Mnemonic

/-!
# Lemmas for C79: bits, pieces of eleven bits, joining and splitting
-/

set_option linter.unusedSimpArgs false
set_option linter.unusedVariables false

namespace Verif.Mnemonic
open Spec

theorem bits_length (k n : Nat) : (Bip39.bits k n).length = k := by
  induction k with
  | zero => rfl
  | succ k ih => simp [Bip39.bits, ih]

theorem number_lt (l : List Bool) : Bip39.number l < 2 ^ l.length := by
  induction l with
  | nil => simp [Bip39.number]
  | cons b l ih =>
    simp only [Bip39.number, List.length_cons, Nat.pow_succ]
    have : b.toNat ≤ 1 := Bool.toNat_le b
    have : b.toNat * 2 ^ l.length ≤ 1 * 2 ^ l.length := Nat.mul_le_mul_right _ this
    omega

theorem bits_add (k m v : Nat) (j : Nat) (hj : j ≤ k) : Bip39.bits j (2 ^ k * m + v) = Bip39.bits j v := by
  induction j with
  | zero => rfl
  | succ j ih =>
    simp only [Bip39.bits]
    rw [ih (by omega)]
    congr 1
    have e : 2 ^ k * m = 2 ^ j * (2 * (2 ^ (k - j - 1) * m)) := by
      rw [← Nat.mul_assoc 2, ← Nat.mul_assoc, ← Nat.pow_succ', ← Nat.pow_add]
      congr 2; omega
    rw [Nat.testBit_eq_decide_div_mod_eq, Nat.testBit_eq_decide_div_mod_eq, e, Nat.mul_add_div (Nat.two_pow_pos j)]
    congr 2
    omega

theorem bits_number (l : List Bool) : Bip39.bits l.length (Bip39.number l) = l := by
  induction l with
  | nil => rfl
  | cons b l ih =>
    simp only [List.length_cons, Bip39.bits, Bip39.number]
    have h := number_lt l
    congr 1
    · rw [Nat.testBit_eq_decide_div_mod_eq, Nat.mul_comm, Nat.mul_add_div (Nat.two_pow_pos _), Nat.div_eq_of_lt h]
      cases b <;> simp
    · rw [Nat.mul_comm, bits_add _ _ _ _ (Nat.le_refl _), ih]

theorem number_bits (k n : Nat) : Bip39.number (Bip39.bits k n) = n % 2 ^ k := by
  induction k with
  | zero => simp [Bip39.bits, Bip39.number, Nat.mod_one]
  | succ k ih =>
    simp only [Bip39.bits, Bip39.number, bits_length, ih, Nat.toNat_testBit]
    rw [Nat.pow_succ, Nat.mod_mul, Nat.mul_comm, Nat.add_comm]

theorem loadBe_acc (l : List Bool) (a : Nat) :
    l.foldl (fun a b => 2 * a + b.toNat) a = 2 ^ l.length * a + Bip39.number l := by
  induction l generalizing a with
  | nil => simp [Bip39.number]
  | cons b l ih =>
    simp only [List.foldl_cons, ih, Bip39.number, List.length_cons, Nat.pow_succ]
    rw [Nat.mul_add, Nat.mul_comm b.toNat, ← Nat.mul_assoc]
    omega

theorem loadBe_eq (l : List Bool) : loadBe l = Bip39.number l := by
  simp [loadBe, loadBe_acc]

theorem msbBits_eq (b : Byte) : msbBits b = Bip39.bits 8 b.toNat := by
  have h : ∀ i < 8, b.getMsbD i = b.toNat.testBit (7 - i) := by
    intro i hi
    rw [BitVec.getMsbD, BitVec.getLsbD]
    simp [hi]
  simp only [msbBits, List.range_eq_range', List.range', List.map_cons, List.map_nil, Bip39.bits]
  simp only [h 0 (by omega), h 1 (by omega), h 2 (by omega), h 3 (by omega), h 4 (by omega), h 5 (by omega), h 6 (by omega), h 7 (by omega)]

theorem bitVec_eq (bs : Bytes) : bitVec bs = Bip39.bytesBits bs := by
  simp only [bitVec, Bip39.bytesBits]
  rw [show msbBits = fun b => Bip39.bits 8 b.toNat from funext msbBits_eq]

theorem bytesBits_length (bs : Bytes) : (Bip39.bytesBits bs).length = 8 * bs.length := by
  induction bs with
  | nil => rfl
  | cons b bs ih =>
    simp only [Bip39.bytesBits, List.flatMap_cons, List.length_append, bits_length, List.length_cons] at *
    omega

theorem toBytes_bytesBits (bs : Bytes) (t : List Bool) : Bip39.toBytes bs.length (Bip39.bytesBits bs ++ t) = bs := by
  induction bs with
  | nil => rfl
  | cons b bs ih =>
    have e : Bip39.bytesBits (b :: bs) = Bip39.bits 8 b.toNat ++ Bip39.bytesBits bs := rfl
    rw [e, List.length_cons, Bip39.toBytes, List.append_assoc, List.take_append_of_le_length (by rw [bits_length]; omega),
      List.drop_append_of_le_length (by rw [bits_length]; omega)]
    rw [List.take_of_length_le (by rw [bits_length]; omega), List.drop_eq_nil_of_le (by rw [bits_length]; omega), List.nil_append, ih, number_bits]
    congr 1
    apply BitVec.eq_of_toNat_eq
    have := b.isLt
    simp only [BitVec.toNat_ofNat]
    omega

theorem toBytes_length (n : Nat) (l : List Bool) : (Bip39.toBytes n l).length = n := by
  induction n generalizing l with
  | zero => rfl
  | succ n ih => simp [Bip39.toBytes, ih]

theorem bytesBits_toBytes (n : Nat) (l : List Bool) (h : 8 * n ≤ l.length) :
    Bip39.bytesBits (Bip39.toBytes n l) = l.take (8 * n) := by
  induction n generalizing l with
  | zero => simp [Bip39.toBytes, Bip39.bytesBits]
  | succ n ih =>
    have e : Bip39.bytesBits (Bip39.toBytes (n + 1) l) =
        Bip39.bits 8 (BitVec.ofNat 8 (Bip39.number (l.take 8))).toNat ++ Bip39.bytesBits (Bip39.toBytes n (l.drop 8)) := rfl
    have h8 : (l.take 8).length = 8 := by rw [List.length_take]; omega
    have hlt := number_lt (l.take 8)
    rw [h8] at hlt
    rw [e, ih _ (by rw [List.length_drop]; omega), BitVec.toNat_ofNat, Nat.mod_eq_of_lt hlt]
    have := bits_number (l.take 8)
    rw [h8] at this
    rw [this, show 8 * (n + 1) = 8 + 8 * n by omega, List.take_add]

/-- Pieces of eleven bits written one after the other. -/
theorem chunks_flatMap : ∀ (ix : List Nat) (f : Nat), ix.length ≤ f →
    chunks f 11 (ix.flatMap (Bip39.bits 11)) = ix.map (Bip39.bits 11) := by
  intro ix
  induction ix with
  | nil => intro f _; cases f <;> rfl
  | cons i ix ih =>
    intro f hf
    obtain ⟨f, rfl⟩ : ∃ g, f = g + 1 := ⟨f - 1, by simp at hf; omega⟩
    have hl := bits_length 11 i
    have e : (i :: ix).flatMap (Bip39.bits 11) = i.testBit 10 :: (Bip39.bits 10 i ++ ix.flatMap (Bip39.bits 11)) := rfl
    rw [e, chunks]
    have e2 : i.testBit 10 :: (Bip39.bits 10 i ++ ix.flatMap (Bip39.bits 11)) = Bip39.bits 11 i ++ ix.flatMap (Bip39.bits 11) := rfl
    rw [e2, List.take_append_of_le_length (by omega), List.drop_append_of_le_length (by omega),
      List.take_of_length_le (by omega), List.drop_eq_nil_of_le (by omega), List.nil_append, ih f (by simp at hf; omega)]
    rfl

/-- Every list of bits whose length is a multiple of eleven is such a sequence of pieces. -/
theorem exists_indices : ∀ (n : Nat) (l : List Bool), l.length = 11 * n →
    ∃ ix : List Nat, ix.length = n ∧ (∀ i ∈ ix, i < 2048) ∧ ix.flatMap (Bip39.bits 11) = l := by
  intro n
  induction n with
  | zero => intro l h; exact ⟨[], rfl, by simp, (List.length_eq_zero_iff.1 (by omega)).symm ▸ rfl⟩
  | succ n ih =>
    intro l h
    obtain ⟨ix, h1, h2, h3⟩ := ih (l.drop 11) (by rw [List.length_drop]; omega)
    have h11 : (l.take 11).length = 11 := by rw [List.length_take]; omega
    have hlt := number_lt (l.take 11)
    have hb := bits_number (l.take 11)
    rw [h11] at hlt hb
    refine ⟨Bip39.number (l.take 11) :: ix, by simp [h1], ?_, ?_⟩
    · intro i hi
      rcases List.mem_cons.1 hi with rfl | hi
      · exact hlt
      · exact h2 i hi
    · rw [List.flatMap_cons, hb, h3, List.take_append_drop]

theorem flatMap_bits_length (ix : List Nat) : (ix.flatMap (Bip39.bits 11)).length = 11 * ix.length := by
  induction ix with
  | nil => rfl
  | cons i ix ih => simp only [List.flatMap_cons, List.length_append, bits_length, List.length_cons, ih]; omega

theorem pick_map (ws : List Chars) (hw : ws.length = 2048) : ∀ ix : List Nat, (∀ i ∈ ix, i < 2048) →
    pick ws (ix.map (Bip39.bits 11)) = .ok (ix.map (fun i => ws.getD i [])) := by
  intro ix
  induction ix with
  | nil => intro _; rfl
  | cons i ix ih =>
    intro h
    have hi := h i (by simp)
    have hv : loadBe (Bip39.bits 11 i) = i := by
      rw [loadBe_eq, number_bits]; exact Nat.mod_eq_of_lt hi
    rw [List.map_cons, pick, hv, List.getElem?_eq_getElem (by omega)]
    simp only
    rw [ih (fun j hj => h j (by simp [hj]))]
    simp [Outcome.bind, List.getD_eq_getElem?_getD, List.getElem?_eq_getElem (show i < ws.length by omega)]

theorem split_ne_nil (d : Nat) (s : List Nat) : Bip39.split d s ≠ [] := by
  cases s with
  | nil => simp [Bip39.split]
  | cons c s =>
    simp only [Bip39.split]
    split
    · simp
    · split <;> simp

theorem split_word (d : Nat) (w : List Nat) (h : ∀ c ∈ w, c ≠ d) : Bip39.split d w = [w] := by
  induction w with
  | nil => rfl
  | cons c w ih =>
    simp only [Bip39.split]
    rw [if_neg (h c (by simp)), ih (fun x hx => h x (by simp [hx]))]

theorem split_word_sep (d : Nat) (w s : List Nat) (h : ∀ c ∈ w, c ≠ d) :
    Bip39.split d (w ++ d :: s) = w :: Bip39.split d s := by
  induction w with
  | nil => simp [Bip39.split]
  | cons c w ih =>
    simp only [List.cons_append, Bip39.split]
    rw [if_neg (h c (by simp)), ih (fun x hx => h x (by simp [hx]))]

theorem split_join (d : Nat) : ∀ ws : List Chars, ws ≠ [] → (∀ w ∈ ws, ∀ c ∈ w, c ≠ d) →
    Bip39.split d (join d ws) = ws
  | [], h, _ => absurd rfl h
  | [w], _, h => by rw [join, split_word d w (h w (by simp))]
  | w :: v :: ws, _, h => by
    rw [join, split_word_sep d w _ (h w (by simp)), split_join d (v :: ws) (by simp) (fun x hx => h x (by simp [hx]))]

theorem join_split (d : Nat) (s : List Nat) : join d (Bip39.split d s) = s := by
  induction s with
  | nil => rfl
  | cons c s ih =>
    simp only [Bip39.split]
    obtain ⟨w, ws, e⟩ := List.exists_cons_of_ne_nil (split_ne_nil d s)
    rw [e] at ih ⊢
    split
    · rename_i hc
      subst hc
      rw [join, ih]; rfl
    · cases ws with
      | nil => simp only [join] at ih ⊢; rw [ih]
      | cons v ws => simp only [join] at ih ⊢; rw [List.cons_append, ih]

theorem find_getElem (ws : List Chars) (hn : ws.Nodup) : ∀ i (h : i < ws.length), Bip39.find ws[i] ws = some i := by
  induction ws with
  | nil => intro i h; simp at h
  | cons v ws ih =>
    intro i h
    obtain ⟨h1, h2⟩ := List.nodup_cons.1 hn
    cases i with
    | zero => simp [Bip39.find]
    | succ i =>
      simp only [List.getElem_cons_succ, Bip39.find]
      have hi : i < ws.length := by simpa using h
      rw [if_neg (fun e => h1 (by rw [e]; exact List.getElem_mem hi)), ih h2 i hi]
      rfl

theorem find_some (w : Chars) : ∀ (ws : List Chars) (i : Nat), Bip39.find w ws = some i → ws[i]? = some w := by
  intro ws
  induction ws with
  | nil => intro i h; simp [Bip39.find] at h
  | cons v ws ih =>
    intro i h
    simp only [Bip39.find] at h
    split at h
    · rename_i e
      cases h
      simp [e]
    · obtain ⟨j, hj, rfl⟩ := Option.map_eq_some_iff.1 h
      simpa using ih j hj

theorem findAll_map (ws : List Chars) (hl : ws.length = 2048) (hn : ws.Nodup) : ∀ ix : List Nat, (∀ i ∈ ix, i < 2048) →
    Bip39.findAll ws (ix.map (fun i => ws.getD i [])) = some ix := by
  intro ix
  induction ix with
  | nil => intro _; rfl
  | cons i ix ih =>
    intro h
    have hi : i < ws.length := by rw [hl]; exact h i (by simp)
    have e : ws.getD i [] = ws[i] := by simp [List.getD_eq_getElem?_getD, List.getElem?_eq_getElem hi]
    rw [List.map_cons, Bip39.findAll, e, find_getElem ws hn i hi, ih (fun j hj => h j (by simp [hj]))]
    rfl

theorem findAll_some (ws : List Chars) (hl : ws.length = 2048) : ∀ (vs : List Chars) (ix : List Nat),
    Bip39.findAll ws vs = some ix → (∀ i ∈ ix, i < 2048) ∧ vs = ix.map (fun i => ws.getD i []) := by
  intro vs
  induction vs with
  | nil => intro ix h; cases h; simp
  | cons v vs ih =>
    intro ix h
    simp only [Bip39.findAll, Option.bind_eq_some_iff] at h
    obtain ⟨i, h1, h2⟩ := h
    obtain ⟨jx, h3, rfl⟩ := Option.map_eq_some_iff.1 h2
    obtain ⟨h4, h5⟩ := ih jx h3
    have h6 := find_some v ws i h1
    obtain ⟨hi, h7⟩ := List.getElem?_eq_some_iff.1 h6
    refine ⟨?_, ?_⟩
    · intro j hj
      rcases List.mem_cons.1 hj with rfl | hj
      · omega
      · exact h4 j hj
    · rw [List.map_cons, ← h5]
      simp [List.getD_eq_getElem?_getD, h6]

/-- What the generator does on an entropy of an allowed length, in terms of the specification. -/
theorem fromEntropy_ok (sha : HashFn) (l : Language) (e : Bytes) (ix : List Nat) (hlen : e.length ∈ entropyLens)
    (hlt : ∀ i ∈ ix, i < 2048)
    (hix : ix.flatMap (Bip39.bits 11) = Bip39.bytesBits e ++ (Bip39.bytesBits (sha e)).take (e.length / 4)) :
    fromEntropy sha l e = .ok (join l.delimiter (ix.map (fun i => l.words.getD i []))) := by
  have hw := (words_facts l).1
  rw [fromEntropy, if_pos hlen]
  simp only [bitVec_eq]
  rw [← hix, chunks_flatMap ix _ (by rw [flatMap_bits_length]; omega), pick_map _ hw ix hlt]
  rfl

/-- The numbers of the words of an entropy of an allowed length. -/
theorem entropy_indices (sha : HashFn) (e : Bytes) (hlen : e.length ∈ entropyLens) :
    ∃ ix : List Nat, ix.length = e.length / 4 * 3 ∧ (∀ i ∈ ix, i < 2048) ∧
      ix.flatMap (Bip39.bits 11) = Bip39.bytesBits e ++ (Bip39.bytesBits (sha e)).take (e.length / 4) := by
  obtain ⟨ix, h1, h2, h3⟩ := exists_indices (e.length / 4 * 3)
    (Bip39.bytesBits e ++ (Bip39.bytesBits (sha e)).take (e.length / 4)) (by
      rw [List.length_append, List.length_take, bytesBits_length, bytesBits_length, sha.len]
      simp only [entropyLens, strengths, List.map_cons, List.map_nil, List.mem_cons, List.not_mem_nil, or_false] at hlen
      omega)
  exact ⟨ix, h1, h2, h3⟩

end Verif.Mnemonic
