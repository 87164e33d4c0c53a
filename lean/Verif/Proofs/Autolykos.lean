import Verif.Spec.Autolykos
import Verif.Proofs.BigInt
import Mathlib.Tactic.Ring
import Mathlib.Tactic.Linarith

set_option linter.unusedSimpArgs false
set_option linter.unusedVariables false

namespace Verif

theorem natBe_split (j d n : Nat) (h : n < 256 ^ j) : natBe (d + j) n = List.replicate d 0 ++ natBe j n := by
  induction d with
  | zero => simp
  | succ d ih =>
    rw [show d + 1 + j = (d + j) + 1 from by omega, natBe, ih, List.replicate_succ, List.cons_append]
    congr 1
    rw [Nat.div_eq_of_lt]
    · rfl
    · exact Nat.lt_of_lt_of_le h (Nat.pow_le_pow_right (by decide) (Nat.le_add_left j d))

theorem natBe_zero_head (s n : Nat) (hn : n < 256 ^ (s + 1)) : (natBe (s + 1) n)[0]? = some 0 ↔ n < 256 ^ s := by
  simp only [natBe, List.getElem?_cons_zero, Option.some.injEq]
  have hp : 0 < 256 ^ s := Nat.pow_pos (by decide)
  have hlt : n / 256 ^ s < 256 := by
    rw [Nat.div_lt_iff_lt_mul hp, Nat.mul_comm, ← Nat.pow_succ]; exact hn
  constructor
  · intro h
    have := congrArg BitVec.toNat h
    simp only [BitVec.toNat_ofNat, BitVec.toNat_zero] at this
    rw [Nat.mod_eq_of_lt (by omega)] at this
    have h2 := Nat.div_eq_zero_iff.1 this
    omega
  · intro h
    rw [Nat.div_eq_of_lt h]; rfl

theorem toSignedBe_nat (n : Nat) : toSignedBe (n : Int) = natBe (signedLen n) n ∧ 2 * n < 256 ^ signedLen (n : Int) := by
  have h := (signedLen_bounds (n : Int)).2
  have hp := pow_half _ (signedLen_pos (n : Int))
  have h2 : n < 2 ^ (8 * signedLen (n : Int) - 1) := by exact_mod_cast h
  refine ⟨?_, by omega⟩
  unfold toSignedBe
  congr 1
  have : (n : Int) % ((256 ^ signedLen (n : Int) : Nat) : Int) = ((n % 256 ^ signedLen (n : Int) : Nat) : Int) := by
    norm_cast
  rw [this, Int.toNat_natCast, Nat.mod_eq_of_lt (by omega)]

/-- On natural numbers below `256^L` the port of `asUnsignedByteArray` is the fixed-width form. -/
theorem asUnsigned_ok (L n : Nat) (hn : n < 256 ^ L) : asUnsigned L (n : Int) = .ok (natBe L n) := by
  obtain ⟨h1, h2⟩ := toSignedBe_nat n
  unfold asUnsigned
  rw [h1]
  obtain ⟨s, hs⟩ : ∃ s, signedLen (n : Int) = s + 1 := ⟨_, (Nat.sub_add_cancel (signedLen_pos _)).symm⟩
  rw [hs] at h2 ⊢
  simp only [natBe_length]
  split
  · next e => rw [← e]
  · next e =>
    have hle : s + 1 ≤ L + 1 := by
      rw [← hs]
      refine signedLen_le (by omega) (by have : (0 : Int) ≤ ((2 ^ (8 * (L + 1) - 1) : Nat) : Int) := Int.natCast_nonneg _
                                         omega) ?_
      have : 256 ^ L ≤ 2 ^ (8 * (L + 1) - 1) := by
        rw [show (256 : Nat) = 2 ^ 8 from rfl, ← Nat.pow_mul]
        exact Nat.pow_le_pow_right (by decide) (by omega)
      exact_mod_cast Nat.lt_of_lt_of_le hn this
    have hd : (natBe (s + 1) n).drop 1 = natBe s n := rfl
    by_cases hz : n < 256 ^ s
    · rw [if_pos ((natBe_zero_head s n (by omega)).2 hz), if_neg (by omega), hd]
      congr 1
      rw [← natBe_split _ _ _ (by simpa using hz)]
      congr 1
      omega
    · rw [if_neg (fun h => hz ((natBe_zero_head s n (by omega)).1 h))]
      have hsL : s + 1 ≠ L + 1 := by
        intro h
        have : s = L := by omega
        subst this; exact hz hn
      rw [if_neg (by omega), List.drop_zero]
      congr 1
      rw [← natBe_split _ _ _ (by omega)]
      congr 1
      omega

theorem asUnsigned_err (L n : Nat) (hn : 256 ^ L ≤ n) : asUnsigned L (n : Int) = .err := by
  obtain ⟨h1, h2⟩ := toSignedBe_nat n
  unfold asUnsigned
  rw [h1]
  obtain ⟨s, hs⟩ : ∃ s, signedLen (n : Int) = s + 1 := ⟨_, (Nat.sub_add_cancel (signedLen_pos _)).symm⟩
  rw [hs] at h2 ⊢
  simp only [natBe_length]
  have hsL : L < s + 1 := by
    by_contra h
    have := Nat.pow_le_pow_right (n := 256) (by decide) (Nat.not_lt.1 h)
    omega
  rw [if_neg (by omega)]
  by_cases hz : n < 256 ^ s
  · rw [if_pos ((natBe_zero_head s n (by omega)).2 hz), if_pos]
    by_contra h
    have := Nat.pow_le_pow_right (n := 256) (by decide) (show s ≤ L by omega)
    omega
  · rw [if_neg (fun h => hz ((natBe_zero_head s n (by omega)).1 h)), if_pos (by omega)]

namespace PowScheme

/-! ## Table size -/

/-- Sizes from which growing never shrinks. -/
def Grows (a : Nat) : Prop := a = 512 ∨ a = 525 ∨ a = 1024 ∨ a = 1050 ∨ 2000 ≤ a

theorem grows_step {a : Nat} (h : Grows a) : a ≤ grow a ∧ Grows (grow a) := by
  unfold Grows grow at *; omega

theorem grows_times (i : Nat) : ∀ a, Grows a → a ≤ growTimes i a ∧ Grows (growTimes i a) := by
  induction i with
  | zero => intro a h; exact ⟨Nat.le_refl _, h⟩
  | succ i ih =>
    intro a h
    obtain ⟨h1, h2⟩ := grows_step h
    obtain ⟨h3, h4⟩ := ih _ h2
    exact ⟨Nat.le_trans h1 h3, h4⟩

theorem growTimes_add (i j : Nat) : ∀ a, growTimes (i + j) a = growTimes j (growTimes i a) := by
  induction i with
  | zero => intro a; simp [growTimes]
  | succ i ih => intro a; rw [show i + 1 + j = (i + j) + 1 from by omega]; exact ih _

theorem growTimes_mono {a : Nat} (h : Grows a) {i j : Nat} (hij : i ≤ j) : growTimes i a ≤ growTimes j a := by
  obtain ⟨d, rfl⟩ := Nat.le.dest hij
  rw [growTimes_add]
  exact (grows_times d _ (grows_times i a h).2).1

theorem grows_pow (n : Nat) (h : 9 ≤ n) : Grows (2 ^ n) := by
  rcases Nat.lt_or_ge n 11 with hn | hn
  · have : n = 9 ∨ n = 10 := by omega
    rcases this with rfl | rfl
    · left; rfl
    · right; right; left; rfl
  · right; right; right; right
    exact Nat.le_trans (by decide) (Nat.pow_le_pow_right (by decide) hn)

theorem calcBigN_mono (P : PowScheme) (hn : 9 ≤ P.n) (v : Byte) (h h' : BitVec 32) (hle : h.toNat ≤ h'.toNat) :
    P.calcBigN v h ≤ P.calcBigN v h' := by
  unfold calcBigN
  dsimp only
  split
  · exact Nat.le_refl _
  · split
    · split
      · exact Nat.le_refl _
      · exact (grows_times _ _ (grows_pow _ hn)).1
    · rw [if_neg (by omega)]
      refine growTimes_mono (grows_pow _ hn) ?_
      have := Nat.div_le_div_right (c := 50 * 1024) (show min 4198400 h.toNat - 600 * 1024 ≤ min 4198400 h'.toNat - 600 * 1024 by omega)
      omega

theorem calcBigN_base (P : PowScheme) (hn : 9 ≤ P.n) (v : Byte) (h : BitVec 32) : 2 ^ P.n ≤ P.calcBigN v h := by
  unfold calcBigN
  dsimp only
  split
  · exact Nat.le_refl _
  · split
    · exact Nat.le_refl _
    · exact (grows_times _ _ (grows_pow _ hn)).1

theorem calcBigN_top : PowScheme.default.calcBigN 2 4198400#32 = 2143944600 := by decide +kernel

theorem calcBigN_le (v : Byte) (h : BitVec 32) : PowScheme.default.calcBigN v h ≤ 2143944600 := by
  have hg := grows_pow 26 (by decide)
  have htop := calcBigN_top
  unfold calcBigN at *
  dsimp only at *
  split
  · decide
  · split
    · decide
    · rw [if_neg (by decide), if_neg (by decide)] at htop
      rw [← htop]
      refine growTimes_mono hg ?_
      have := Nat.div_le_div_right (c := 50 * 1024) (show min 4198400 h.toNat - 600 * 1024 ≤ min 4198400 (4198400#32).toNat - 600 * 1024 by
        have : (4198400#32).toNat = 4198400 := by decide
        omega)
      omega

/-! ## Indexes -/

theorem window_eq (seed : Bytes) (hs : seed.length = 32) (i : Nat) (hi : i < 32) :
    beNat (((seed ++ seed.take 3).drop i).take 4) = Spec.window seed i := by
  have hlen : (seed ++ seed.take 3).length = 35 := by simp [hs]
  have hget : ∀ j, j < 35 → (seed ++ seed.take 3)[j]? = some ((seed[j % 32]?).getD 0) := by
    intro j hj
    by_cases h : j < 32
    · rw [List.getElem?_append_left (by omega), Nat.mod_eq_of_lt h, List.getElem?_eq_getElem (by omega)]; rfl
    · rw [List.getElem?_append_right (by omega), hs, List.getElem?_take_of_lt (by omega)]
      have : j % 32 = j - 32 := by omega
      rw [this, List.getElem?_eq_getElem (by omega)]; rfl
  have hd : ((seed ++ seed.take 3).drop i).take 4 =
      [(seed[(i + 0) % 32]?).getD 0, (seed[(i + 1) % 32]?).getD 0, (seed[(i + 2) % 32]?).getD 0, (seed[(i + 3) % 32]?).getD 0] := by
    apply List.ext_getElem?
    intro j
    by_cases hj : j < 4
    · rw [List.getElem?_take_of_lt hj, List.getElem?_drop, hget _ (by omega)]
      have : j = 0 ∨ j = 1 ∨ j = 2 ∨ j = 3 := by omega
      rcases this with rfl | rfl | rfl | rfl <;> rfl
    · rw [List.getElem?_eq_none (by simp; omega), List.getElem?_eq_none (by simp; omega)]
  rw [hd]
  simp only [beNat, List.length_cons, List.length_nil, Spec.window]
  ring

theorem window_lt (seed : Bytes) (i : Nat) : Spec.window seed i < 2 ^ 32 := by
  have h0 := ((seed[(i + 0) % 32]?).getD 0).isLt
  have h1 := ((seed[(i + 1) % 32]?).getD 0).isLt
  have h2 := ((seed[(i + 2) % 32]?).getD 0).isLt
  have h3 := ((seed[(i + 3) % 32]?).getD 0).isLt
  show ((((seed[(i + 0) % 32]?).getD 0).toNat * 256 + ((seed[(i + 1) % 32]?).getD 0).toNat) * 256
    + ((seed[(i + 2) % 32]?).getD 0).toNat) * 256 + ((seed[(i + 3) % 32]?).getD 0).toNat < _
  generalize ((seed[(i + 0) % 32]?).getD 0).toNat = a at *
  generalize ((seed[(i + 1) % 32]?).getD 0).toNat = b at *
  generalize ((seed[(i + 2) % 32]?).getD 0).toNat = c at *
  generalize ((seed[(i + 3) % 32]?).getD 0).toNat = d at *
  omega

theorem genIndex_eq (seed : Bytes) (hs : seed.length = 32) (N i : Nat) (hi : i < 32) :
    genIndex (seed ++ seed.take 3) N i =
      if N = 0 ∨ Spec.window seed i % N = 0 then .panic else .ok (Spec.window seed i % N) := by
  unfold genIndex modBig
  rw [window_eq seed hs i hi]
  by_cases hN : N = 0
  · rw [if_pos hN, if_pos (.inl hN)]; rfl
  · rw [if_neg hN]
    show (if Spec.window seed i % N = 0 then _ else _) = _
    by_cases hz : Spec.window seed i % N = 0
    · rw [if_pos hz, if_pos (.inr hz)]
    · rw [if_neg hz, if_neg (by simp [hN, hz]), Nat.mod_eq_of_lt]
      exact Nat.lt_of_le_of_lt (Nat.mod_le _ _) (window_lt seed i)

theorem genLoop_spec (seed : Bytes) (hs : seed.length = 32) (N : Nat) (l : List Nat) (hl : ∀ i ∈ l, i < 32) :
    (genLoop (seed ++ seed.take 3) N l = .panic ∧ ∃ i ∈ l, N = 0 ∨ Spec.window seed i % N = 0) ∨
    (genLoop (seed ++ seed.take 3) N l = .ok (l.map fun i => Spec.window seed i % N) ∧
      ∀ i ∈ l, N ≠ 0 ∧ Spec.window seed i % N ≠ 0) := by
  induction l with
  | nil => right; exact ⟨rfl, by simp⟩
  | cons i l ih =>
    have hi := hl i (by simp)
    rcases ih (fun j hj => hl j (by simp [hj])) with ⟨h1, j, hj, h2⟩ | ⟨h1, h2⟩
    · left
      refine ⟨?_, j, by simp [hj], h2⟩
      simp only [genLoop]
      rw [genIndex_eq seed hs N i hi, h1]
      split <;> rfl
    · simp only [genLoop]
      rw [genIndex_eq seed hs N i hi, h1]
      by_cases hz : N = 0 ∨ Spec.window seed i % N = 0
      · left
        rw [if_pos hz]
        exact ⟨rfl, i, by simp, hz⟩
      · right
        rw [if_neg hz]
        refine ⟨rfl, ?_⟩
        intro j hj
        rcases List.mem_cons.1 hj with rfl | hj
        · simpa [not_or] using hz
        · exact h2 j hj

theorem beNat_drop1_lt (H : HashFn) (x : Bytes) : beNat ((H x).drop 1) < 256 ^ 31 := by
  have := beNat_lt ((H x).drop 1)
  simpa [H.len] using this

theorem sumHashes_le (H : HashFn) (hb : Bytes) (idx : List Nat) : ∀ a,
    idx.foldl (fun acc i => acc + beNat ((H (natBe 4 i ++ hb ++ calcBigM)).drop 1)) a ≤ a + idx.length * 256 ^ 31 := by
  induction idx with
  | nil => intro a; simp
  | cons i l ih =>
    intro a
    simp only [List.foldl_cons, List.length_cons]
    have h1 := ih (a + beNat ((H (natBe 4 i ++ hb ++ calcBigM)).drop 1))
    have h2 := beNat_drop1_lt H (natBe 4 i ++ hb ++ calcBigM)
    calc _ ≤ _ := h1
      _ ≤ _ := by rw [Nat.add_mul]; omega

end PowScheme

/-! ## Compact bits -/

theorem beNat_append (a b : Bytes) : beNat (a ++ b) = beNat a * 256 ^ b.length + beNat b := by
  induction a with
  | nil => simp [beNat]
  | cons x a ih =>
    simp only [List.cons_append, beNat, ih, List.length_append, Nat.pow_add]
    ring

theorem beNat_zeros (n : Nat) : beNat (List.replicate n 0) = 0 := by
  induction n with
  | zero => rfl
  | succ n ih =>
    rw [List.replicate_succ]
    show (0 : Byte).toNat * _ + beNat (List.replicate n 0) = 0
    rw [ih]; simp

theorem signedOfBe_small (b : Byte) (l : Bytes) (h : b.toNat < 128) : signedOfBe (b :: l) = beNat (b :: l) := by
  show (if 128 ≤ b.toNat then _ else _) = _
  rw [if_neg (by omega)]

theorem mask7f (b : Byte) : (b &&& 0x7F).toNat = b.toNat % 128 := by
  have : ∀ n : Fin 256, ((BitVec.ofFin n : Byte) &&& 0x7F).toNat = n.val % 128 := by decide +kernel
  exact this b.toFin

theorem mask80 (b : Byte) : (b &&& 0x80 = 0x80) ↔ 128 ≤ b.toNat := by
  have : ∀ n : Fin 256, ((BitVec.ofFin n : Byte) &&& 0x80 = 0x80) ↔ 128 ≤ n.val := by decide +kernel
  exact this b.toFin

theorem decode_head (b : Byte) (l : Bytes) :
    (if b &&& 0x80 = 0x80 then -signedOfBe ((b &&& 0x7F) :: l) else signedOfBe (b :: l)) =
      (if b.toNat / 128 % 2 = 1 then -((b.toNat % 128 * 256 ^ l.length + beNat l : Nat) : Int)
        else ((b.toNat % 128 * 256 ^ l.length + beNat l : Nat) : Int)) := by
  have hb := b.isLt
  by_cases h : b &&& 0x80 = 0x80
  · have h' := (mask80 b).1 h
    rw [if_pos h, if_pos (by omega), signedOfBe_small _ _ (by rw [mask7f]; omega)]
    simp only [beNat, mask7f]
  · have h' : ¬ 128 ≤ b.toNat := fun c => h ((mask80 b).2 c)
    rw [if_neg h, if_neg (by omega), signedOfBe_small _ _ (by omega)]
    simp only [beNat]
    rw [Nat.mod_eq_of_lt (by omega)]

theorem decodeCompact_eq (nBits : BitVec 64) : decodeCompact nBits = Spec.compactValue nBits.toNat := by
  have hlt := nBits.isLt
  have hsz : ((nBits >>> 24).setWidth 8 : Byte).toNat = nBits.toNat / 2 ^ 24 % 256 := by
    simp [BitVec.toNat_setWidth, BitVec.toNat_ushiftRight, Nat.shiftRight_eq_div_pow]
  have hb0 : ((nBits >>> 16).setWidth 8 : Byte).toNat = nBits.toNat / 2 ^ 16 % 256 := by
    simp [BitVec.toNat_setWidth, BitVec.toNat_ushiftRight, Nat.shiftRight_eq_div_pow]
  have hb1 : ((nBits >>> 8).setWidth 8 : Byte).toNat = nBits.toNat / 2 ^ 8 % 256 := by
    simp [BitVec.toNat_setWidth, BitVec.toNat_ushiftRight, Nat.shiftRight_eq_div_pow]
  have hb2 : (nBits.setWidth 8 : Byte).toNat = nBits.toNat % 256 := by
    simp [BitVec.toNat_setWidth]
  unfold decodeCompact Spec.compactValue
  dsimp only
  rw [hsz]
  generalize hN : nBits.toNat = N at *
  generalize hs : N / 2 ^ 24 % 256 = s at *
  generalize hx0 : ((nBits >>> 16).setWidth 8 : Byte) = x0 at *
  generalize hx1 : ((nBits >>> 8).setWidth 8 : Byte) = x1 at *
  generalize hx2 : (nBits.setWidth 8 : Byte) = x2 at *
  unfold compactBuf
  rw [hx0, hx1, hx2]
  have hbit : N / 2 ^ 23 % 2 = x0.toNat / 128 % 2 := by omega
  have hm : N % 2 ^ 23 = x0.toNat % 128 * 65536 + x1.toNat * 256 + x2.toNat := by omega
  rw [hbit, hm]
  rcases s with _ | _ | _ | s
  · rw [if_pos rfl]
    have : (x0.toNat % 128 * 65536 + x1.toNat * 256 + x2.toNat) * 256 ^ 0 / 256 ^ 3 = 0 := by omega
    rw [this]; split <;> rfl
  · rw [if_neg (by omega)]
    show (if x0 &&& 0x80 = 0x80 then -signedOfBe ((x0 &&& 0x7F) :: []) else signedOfBe (x0 :: [])) = _
    rw [decode_head]
    have : (x0.toNat % 128 * 65536 + x1.toNat * 256 + x2.toNat) * 256 ^ (0 + 1) / 256 ^ 3 = x0.toNat % 128 := by omega
    rw [this]
    simp [beNat]
  · rw [if_neg (by omega)]
    show (if x0 &&& 0x80 = 0x80 then -signedOfBe ((x0 &&& 0x7F) :: [x1]) else signedOfBe (x0 :: [x1])) = _
    rw [decode_head]
    have : (x0.toNat % 128 * 65536 + x1.toNat * 256 + x2.toNat) * 256 ^ (0 + 1 + 1) / 256 ^ 3 = x0.toNat % 128 * 256 + x1.toNat := by omega
    rw [this]
    simp [beNat]
  · rw [if_neg (by omega)]
    have ht : ([x0, x1, x2] ++ List.replicate (s + 1 + 1 + 1 - 3) 0).take (s + 1 + 1 + 1) = x0 :: x1 :: x2 :: List.replicate s 0 := by
      rw [List.take_of_length_le (by simp)]
      rfl
    rw [ht]
    show (if x0 &&& 0x80 = 0x80 then -signedOfBe ((x0 &&& 0x7F) :: x1 :: x2 :: List.replicate s 0)
      else signedOfBe (x0 :: x1 :: x2 :: List.replicate s 0)) = _
    rw [decode_head]
    have h1 : x0.toNat % 128 * 256 ^ (x1 :: x2 :: List.replicate s (0 : Byte)).length + beNat (x1 :: x2 :: List.replicate s 0) =
        (x0.toNat % 128 * 65536 + x1.toNat * 256 + x2.toNat) * 256 ^ s := by
      simp only [beNat, List.length_cons, List.length_replicate, beNat_zeros]
      ring
    have h2 : (x0.toNat % 128 * 65536 + x1.toNat * 256 + x2.toNat) * 256 ^ (s + 1 + 1 + 1) / 256 ^ 3 =
        (x0.toNat % 128 * 65536 + x1.toNat * 256 + x2.toNat) * 256 ^ s := by
      rw [show s + 1 + 1 + 1 = s + 3 from rfl, Nat.pow_add, ← Nat.mul_assoc, Nat.mul_div_cancel _ (by decide)]
    rw [h1, h2]

end Verif
