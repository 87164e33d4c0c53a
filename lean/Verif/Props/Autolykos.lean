import Verif.Proofs.Autolykos
import Verif.Props.Header

/-!
# C45, C46: proof-of-work tables and compact difficulties
-/

set_option linter.unusedVariables false

namespace Verif
open PowScheme

/-! ## C45 -/

/-- C45: whenever `gen_indexes` returns, it returns `k` numbers, the `i`-th being the four bytes of the seed from position `i` on
(read cyclically) modulo `N`; all are below `N`.  (Not for every seed: see `C45_indexes_panic`.) -/
theorem C45_indexes_partial (P : PowScheme) (hk : P.k ≤ 32) (seed : Bytes) (hs : seed.length = 32) (N : Nat) (l : List Nat)
    (h : P.genIndexes seed N = .ok l) :
    l = (List.range P.k).map (fun i => Spec.window seed i % N) ∧ l.length = P.k ∧ ∀ x ∈ l, x < N := by
  rcases genLoop_spec seed hs N (List.range P.k) (fun i hi => by have := List.mem_range.1 hi; omega) with ⟨h1, _⟩ | ⟨h1, h2⟩
  · rw [genIndexes, h1] at h; cases h
  · rw [genIndexes, h1] at h
    obtain rfl : _ = l := by injection h
    refine ⟨rfl, by simp, fun x hx => ?_⟩
    obtain ⟨i, hi, rfl⟩ := List.mem_map.1 hx
    exact Nat.mod_lt _ (Nat.pos_of_ne_zero (h2 i hi).1)

/-- C45: the cases in which `gen_indexes` panics are exactly those in which one of the indexes would be 0 (or the table is
empty); it never returns an error. -/
theorem C45_indexes_panic (P : PowScheme) (hk : P.k ≤ 32) (seed : Bytes) (hs : seed.length = 32) (N : Nat) :
    (P.genIndexes seed N = .panic ↔ ∃ i < P.k, N = 0 ∨ Spec.window seed i % N = 0) ∧ P.genIndexes seed N ≠ .err := by
  rcases genLoop_spec seed hs N (List.range P.k) (fun i hi => by have := List.mem_range.1 hi; omega) with ⟨h1, i, hi, h2⟩ | ⟨h1, h2⟩
  · rw [genIndexes, h1]
    exact ⟨⟨fun _ => ⟨i, List.mem_range.1 hi, h2⟩, fun _ => rfl⟩, by simp⟩
  · rw [genIndexes, h1]
    refine ⟨⟨fun h => (by cases h), fun ⟨i, hi, h⟩ => ?_⟩, by simp⟩
    have := h2 i (List.mem_range.2 hi)
    rcases h with h | h
    · exact absurd h this.1
    · exact absurd h this.2

/-- C45 does not hold for every seed: with the only scheme that can be made, four zero bytes in a seed are enough for a panic,
whatever the other bytes are. -/
theorem C45_violation_zero_window (seed : Bytes) (hs : seed.length = 32) (i : Nat) (hi : i + 3 < 32)
    (hz : ∀ j < 4, seed[i + j]? = some 0) (N : Nat) : PowScheme.default.genIndexes seed N = .panic := by
  refine (C45_indexes_panic PowScheme.default (by decide) seed hs N).1.2 ⟨i, by show i < 32; omega, .inr ?_⟩
  have : Spec.window seed i = 0 := by
    have hj : ∀ j < 4, ((seed[(i + j) % 32]?).getD 0).toNat = 0 := by
      intro j hj
      rw [Nat.mod_eq_of_lt (by omega), hz j hj]; rfl
    unfold Spec.window
    dsimp only
    rw [hj 0 (by decide), hj 1 (by decide), hj 2 (by decide), hj 3 (by decide)]
  rw [this, Nat.zero_mod]

/-- The zero seed, and a seed on which all is well. -/
example : PowScheme.default.genIndexes (List.replicate 32 0) (2 ^ 26) = .panic ∧
    (match PowScheme.default.genIndexes (natBe 32 0x0102030405060708090a0b0c0d0e0f101112131415161718191a1b1c1d1e1f20) (2 ^ 26) with
      | .ok l => l.length == 32 && l[0]? == some 0x1020304 && l[31]? == some 0x10203
      | _ => false) = true :=
  ⟨C45_violation_zero_window _ rfl 5 (by decide) (by decide) _, by decide +kernel⟩

/-- C45: the table never gets smaller as the height grows. -/
theorem C45_table_monotone (P : PowScheme) (hn : 9 ≤ P.n) (v : Byte) (h h' : BitVec 32) (hle : h.toNat ≤ h'.toNat) :
    P.calcBigN v h ≤ P.calcBigN v h' := calcBigN_mono P hn v h h' hle

/-- C45: for the scheme in use the table has between `2^26` and 2143944600 elements, so an index fits a signed 32-bit number. -/
theorem C45_table_bound (v : Byte) (h : BitVec 32) :
    2 ^ 26 ≤ PowScheme.default.calcBigN v h ∧ PowScheme.default.calcBigN v h ≤ 2143944600 ∧ 2143944600 < 2 ^ 31 :=
  ⟨calcBigN_base PowScheme.default (by decide) v h, calcBigN_le v h, by decide⟩

/-- The bound is reached, and growth starts at height 614400.  The lower bound on `n` is needed: a table of `2^8` elements would
shrink. -/
example : PowScheme.default.calcBigN 2 4198400 = 2143944600 ∧ PowScheme.default.calcBigN 2 614399 = 2 ^ 26 ∧
    PowScheme.default.calcBigN 2 614400 = 70464240 ∧ PowScheme.calcBigN ⟨32, 8⟩ 2 614400 < PowScheme.calcBigN ⟨32, 8⟩ 2 614399 := by
  decide +kernel

/-- C45: the hit of a header of version 2 or later never is an error.  It is a number of 256 bits, unless one of the 32 indexes
drawn from the header's seed is 0, in which case computing it panics. -/
theorem C45_hit {G : Type} (H : HashFn) (h : Header G) (hv : h.version ≠ 1) (N : Nat)
    (hN : N = PowScheme.default.calcBigN h.version h.height) :
    ∃ seed, calcSeed H N (H h.serWithoutPow) h.solution.nonce (natBe 4 h.height.toNat) = .ok seed ∧ seed.length = 32 ∧
      (((∀ i < 32, Spec.window seed i % N ≠ 0) ∧ ∃ x : Int, PowScheme.default.powHit H h = .ok x ∧ 0 ≤ x ∧ x < 2 ^ 256) ∨
        ((∃ i < 32, Spec.window seed i % N = 0) ∧ PowScheme.default.powHit H h = .panic)) := by
  obtain ⟨b1, b2, b3⟩ := C45_table_bound h.version h.height
  unfold powHit
  rw [if_neg hv]
  rw [← hN] at b1 b2 ⊢
  dsimp only
  have hN : N ≠ 0 := by omega
  have hseed : ∃ s, calcSeed H N (H h.serWithoutPow) h.solution.nonce (natBe 4 h.height.toNat) = .ok s ∧ s.length = 32 := by
    unfold calcSeed modBig
    rw [if_neg hN]
    have hlt : beNat ((H (H h.serWithoutPow ++ h.solution.nonce)).drop 24) % N < 256 ^ 4 := by
      have := Nat.mod_lt (beNat ((H (H h.serWithoutPow ++ h.solution.nonce)).drop 24)) (Nat.pos_of_ne_zero hN)
      omega
    refine ⟨H ((H (natBe 4 (beNat ((H (H h.serWithoutPow ++ h.solution.nonce)).drop 24) % N) ++ natBe 4 h.height.toNat ++
      calcBigM)).drop 1 ++ H h.serWithoutPow ++ h.solution.nonce), ?_, H.len _⟩
    show ((asUnsigned 4 _) >>= _) = _
    rw [asUnsigned_ok _ _ hlt]
    rfl
  obtain ⟨s, hs, hlen⟩ := hseed
  refine ⟨s, hs, hlen, ?_⟩
  rw [hs]
  rcases genLoop_spec s hlen N (List.range PowScheme.default.k) (fun i hi => List.mem_range.1 hi) with ⟨h1, i, hi, h2⟩ | ⟨h1, h2⟩
  · right
    refine ⟨⟨i, List.mem_range.1 hi, ?_⟩, ?_⟩
    · rcases h2 with h2 | h2
      · exact absurd h2 hN
      · exact h2
    · show (PowScheme.default.genIndexes s N >>= _) = _
      rw [genIndexes, h1]; rfl
  · left
    refine ⟨fun i hi => (h2 i (List.mem_range.2 hi)).2, ?_⟩
    have hsum := sumHashes_le H (natBe 4 h.height.toNat) ((List.range PowScheme.default.k).map fun i => Spec.window s i % N) 0
    have hs32 : sumHashes H (natBe 4 h.height.toNat) ((List.range PowScheme.default.k).map fun i => Spec.window s i % N) < 256 ^ 32 := by
      refine Nat.lt_of_le_of_lt hsum ?_
      simp only [List.length_map, List.length_range, PowScheme.default]
      decide
    refine ⟨(beNat (H (natBe 32 (sumHashes H (natBe 4 h.height.toNat) ((List.range PowScheme.default.k).map fun i => Spec.window s i % N)))) : Nat),
      ?_, Int.natCast_nonneg _, ?_⟩
    · show (PowScheme.default.genIndexes s N >>= _) = _
      rw [genIndexes, h1]
      show (match asUnsigned 32 _ with | .ok a => _ | _ => _) = _
      rw [asUnsigned_ok _ _ hs32]
    · have := beNat_lt (H (natBe 32 (sumHashes H (natBe 4 h.height.toNat) ((List.range PowScheme.default.k).map fun i => Spec.window s i % N))))
      rw [H.len] at this
      have h2 : (256 : Nat) ^ 32 = 2 ^ 256 := by decide
      rw [h2] at this
      exact_mod_cast this

/-- A header of version 2; with one hash function its hit is computed, with another it panics. -/
example : headerV2.version ≠ 1 ∧ PowScheme.default.powHit toyHash headerV2 = .panic ∧
    (match PowScheme.default.powHit { run := fun _ => List.replicate 32 7, len := fun _ => by simp } headerV2 with
      | .ok _ => true
      | _ => false) = true := by
  decide +kernel

/-! ## C46 -/

/-- C46: a compact number decodes to `± mantissa * 256^(size - 3)`, cut to an integer when the size is below 3; bits above the
lowest 32 are ignored. -/
theorem C46_value (nBits : BitVec 64) : decodeCompact nBits = Spec.compactValue nBits.toNat := decodeCompact_eq nBits

/-- C46: the sign of the result is that of the sign bit. -/
theorem C46_sign (nBits : BitVec 64) :
    (nBits.toNat / 2 ^ 23 % 2 = 0 → 0 ≤ decodeCompact nBits) ∧ (nBits.toNat / 2 ^ 23 % 2 = 1 → decodeCompact nBits ≤ 0) := by
  rw [C46_value]
  unfold Spec.compactValue
  dsimp only
  constructor
  · intro h; rw [if_neg (by omega)]; exact Int.natCast_nonneg _
  · intro h; rw [if_pos h]
    have := Int.natCast_nonneg (nBits.toNat % 2 ^ 23 * 256 ^ (nBits.toNat / 2 ^ 24 % 256) / 256 ^ 3)
    omega

/-- C46: from size 3 on nothing is cut: distinct mantissas give distinct numbers. -/
theorem C46_exact (nBits : BitVec 64) (hs : 3 ≤ nBits.toNat / 2 ^ 24 % 256) :
    (decodeCompact nBits).natAbs = nBits.toNat % 2 ^ 23 * 256 ^ (nBits.toNat / 2 ^ 24 % 256 - 3) := by
  rw [C46_value]
  unfold Spec.compactValue
  dsimp only
  generalize nBits.toNat / 2 ^ 24 % 256 = s at *
  have : nBits.toNat % 2 ^ 23 * 256 ^ s / 256 ^ 3 = nBits.toNat % 2 ^ 23 * 256 ^ (s - 3) := by
    obtain ⟨t, rfl⟩ := Nat.le.dest hs
    rw [Nat.add_comm 3 t, Nat.pow_add, ← Nat.mul_assoc, Nat.mul_div_cancel _ (by decide), Nat.add_sub_cancel]
  rw [this]
  split
  · rw [Int.natAbs_neg, Int.natAbs_natCast]
  · rw [Int.natAbs_natCast]

/-- The examples of the documentation. -/
example : decodeCompact 0x04123456 = 0x12345600 ∧ decodeCompact 0x01003456 = 0 ∧ decodeCompact 0x05123456 = 0x1234560000 ∧
    decodeCompact 0x0600c0de = 0xc0de000000 ∧ decodeCompact 0x05c0de00 = -0x40de000000 := by decide +kernel

/-- C46: a header other than the genesis header whose compact difficulty is zero makes `max_level_of` panic (division by zero);
such headers parse. -/
theorem C46_violation_zero {G : Type} (W : Pow) (h : Header G) (hh : h.height ≠ 1) (hz : Spec.compactValue h.nBits.toNat = 0) :
    W.maxLevel h = .panic := by
  unfold Pow.maxLevel
  rw [if_neg hh, if_pos (by rw [C46_value]; exact hz)]

/-- A header with difficulty 0, which serializes and parses. -/
example : Spec.compactValue ({ headerV2 with nBits := 0 }).nBits.toNat = 0 ∧ headerV2.height ≠ 1 := by decide

end Verif
