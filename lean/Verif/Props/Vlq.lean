import Verif.Proofs.VlqGet

/-! # C01–C04: integer, bit, string, list and option coding -/

set_option linter.unusedVariables false

namespace Verif
open Spec

/-! ## C01 -/

/-- C01: unsigned values are read back exactly and the continuation is untouched. -/
theorem C01_u64_roundtrip (v : BitVec 64) (rest : Bytes) : getU64 (putU64 v ++ rest) = some (v, rest) :=
  getU64_put v rest

theorem C01_u32_roundtrip (v : BitVec 32) (rest : Bytes) : getU32 (putU32 v ++ rest) = some (v, rest) :=
  getU32_put v rest

theorem C01_u16_roundtrip (v : BitVec 16) (rest : Bytes) : getU16 (putU16 v ++ rest) = some (v, rest) :=
  getU16_put v rest

/-- C01: the written form really is the base-128 form of the number: little-endian digits, flag on all but the last
byte, 1 to 10 bytes, and no shorter form of that shape exists. -/
theorem C01_u64_format (v : BitVec 64) :
    vlqValue (putU64 v) = v.toNat ∧ vlqGroup (putU64 v) = true ∧
      1 ≤ (putU64 v).length ∧ (putU64 v).length ≤ 10 ∧
      ∀ c, vlqValue c = v.toNat → c ≠ [] → (putU64 v).length ≤ c.length := by
  refine ⟨(putU64_value _ v rfl).1, (putU64_value _ v rfl).2, (putU64_length v).1, (putU64_length v).2, ?_⟩
  intro c hc hne
  have hlen : 1 ≤ c.length := by cases c <;> simp_all
  obtain ⟨k, hk⟩ : ∃ k, c.length = k + 1 := ⟨c.length - 1, by omega⟩
  rw [hk]
  refine (putU64_length_le_iff _ k v rfl).2 ?_
  have := vlqValue_lt c
  rw [hc, hk] at this
  exact this

/-- C01: injective and prefix free, even with different continuations. -/
theorem C01_u64_prefix_free (v w : BitVec 64) (r r' : Bytes) (h : putU64 v ++ r = putU64 w ++ r') :
    v = w ∧ r = r' :=
  RoundTrips.injective (P := fun _ => True) (fun a _ rest => getU64_put a rest) trivial trivial h

example : putU64 300#64 = [0xAC#8, 0x02#8] := by decide +kernel
example : getU64 [0xAC#8, 0x02#8, 0xFF#8] = some (300#64, [0xFF#8]) := by decide
example : (putU64 (BitVec.allOnes 64)).length = 10 := by decide +kernel

/-! ## C02 -/

theorem C02_i64_roundtrip (v : BitVec 64) (rest : Bytes) : getI64 (putI64 v ++ rest) = some (v, rest) :=
  getI64_put v rest

theorem C02_i32_roundtrip (v : BitVec 32) (rest : Bytes) : getI32 (putI32 v ++ rest) = some (v, rest) :=
  getI32_put v rest

theorem C02_i16_roundtrip (v : BitVec 16) (rest : Bytes) : getI16 (putI16 v ++ rest) = some (v, rest) :=
  getI16_put v rest

/-- C02: ZigZag on 64 bits is a bijection. -/
theorem C02_zigzag64_bijective : Function.Bijective zigzagEncodeI64 :=
  ⟨fun a b h => by rw [← zigzag64_dec_enc a, h, zigzag64_dec_enc], fun u => ⟨zigzagDecodeU64 u, zigzag64_enc_dec u⟩⟩

/-- C02: the ZigZag code of `v` is `2v` for `v ≥ 0` and `-2v-1` for `v < 0`. -/
theorem C02_zigzag64_value (v : BitVec 64) :
    ((zigzagEncodeI64 v).toNat : Int) = if 0 ≤ v.toInt then 2 * v.toInt else -2 * v.toInt - 1 := by
  have := zigzag64_toNat v
  split <;> simp_all <;> omega

example : putI32 (BitVec.ofInt 32 (-1)) = [1#8] := by decide +kernel
example : (putI32 (BitVec.ofInt 32 (-2147483648))).length = 10 := by decide +kernel
example : getI64 (putI64 (BitVec.ofInt 64 (-9223372036854775808)) ++ [7#8])
    = some (BitVec.ofInt 64 (-9223372036854775808), [7#8]) := C02_i64_roundtrip _ _

/-! ## C03 -/

/-- C03: what a successful read looks like on an arbitrary byte string.  The consumed bytes `c` form one VLQ group
of 1 to 10 bytes, the value is the base-128 number they denote modulo 2^64, and re-encoding is never longer. -/
theorem C03_get_u64_some (s rest : Bytes) (v : BitVec 64) (h : getU64 s = some (v, rest)) :
    ∃ c, s = c ++ rest ∧ vlqGroup c = true ∧ 1 ≤ c.length ∧ c.length ≤ 10 ∧
      v.toNat = vlqValue c % 2 ^ 64 ∧ (putU64 v).length ≤ c.length := by
  obtain ⟨c, h1, h2, h3, h4⟩ := getU64Loop_some s 0 0#64 v rest (by simp) (by simpa [getU64] using h)
  have hlen : 1 ≤ c.length := by cases c <;> simp_all [vlqGroup]
  have hval : v.toNat = vlqValue c % 2 ^ 64 := by simpa using h4
  refine ⟨c, h1, h2, hlen, by omega, hval, ?_⟩
  obtain ⟨k, hk⟩ : ∃ k, c.length = k + 1 := ⟨c.length - 1, by omega⟩
  rw [hk]
  refine (putU64_length_le_iff _ k v rfl).2 ?_
  have h5 := vlqValue_lt c
  rw [hk] at h5
  exact lt_of_le_of_lt (by rw [hval]; exact Nat.mod_le _ _) h5

/-- C03: a read fails exactly when no terminating byte occurs among the first ten (or fewer, at the end of input). -/
theorem C03_get_u64_none (s : Bytes) : getU64 s = none ↔ ∀ b ∈ s.take 10, more b = true := by
  have := getU64Loop_none s 0 0#64 (by decide)
  simpa [getU64] using this

/-- C03: the 32 and 16 bit readers accept exactly the groups whose value fits. -/
theorem C03_get_u32_iff (s rest : Bytes) (v : BitVec 32) :
    getU32 s = some (v, rest) ↔ ∃ w, getU64 s = some (w, rest) ∧ w.toNat = v.toNat := by
  unfold getU32
  rw [Parser.bind_eq_some]
  constructor
  · rintro ⟨w, s', h1, h2⟩
    by_cases hw : w.toNat < 2 ^ 32
    · rw [if_pos hw] at h2
      simp only [Parser.pure_run, Option.some.injEq, Prod.mk.injEq] at h2
      obtain ⟨rfl, rfl⟩ := h2
      exact ⟨w, h1, by rw [BitVec.toNat_setWidth, Nat.mod_eq_of_lt hw]⟩
    · rw [if_neg hw] at h2; simp at h2
  · rintro ⟨w, h1, h2⟩
    refine ⟨w, rest, h1, ?_⟩
    have hw : w.toNat < 2 ^ 32 := by rw [h2]; exact v.isLt
    rw [if_pos hw]
    simp only [Parser.pure_run, Option.some.injEq, Prod.mk.injEq, and_true]
    apply BitVec.eq_of_toNat_eq
    rw [BitVec.toNat_setWidth, Nat.mod_eq_of_lt hw, h2]

theorem C03_get_u16_iff (s rest : Bytes) (v : BitVec 16) :
    getU16 s = some (v, rest) ↔ ∃ w, getU64 s = some (w, rest) ∧ w.toNat = v.toNat := by
  unfold getU16
  rw [Parser.bind_eq_some]
  constructor
  · rintro ⟨w, s', h1, h2⟩
    by_cases hw : w.toNat < 2 ^ 16
    · rw [if_pos hw] at h2
      simp only [Parser.pure_run, Option.some.injEq, Prod.mk.injEq] at h2
      obtain ⟨rfl, rfl⟩ := h2
      exact ⟨w, h1, by rw [BitVec.toNat_setWidth, Nat.mod_eq_of_lt hw]⟩
    · rw [if_neg hw] at h2; simp at h2
  · rintro ⟨w, h1, h2⟩
    refine ⟨w, rest, h1, ?_⟩
    have hw : w.toNat < 2 ^ 16 := by rw [h2]; exact v.isLt
    rw [if_pos hw]
    simp only [Parser.pure_run, Option.some.injEq, Prod.mk.injEq, and_true]
    apply BitVec.eq_of_toNat_eq
    rw [BitVec.toNat_setWidth, Nat.mod_eq_of_lt hw, h2]

/-- C03 (finding): decoding is not injective; overlong forms of the same value are accepted, and bits beyond
the 64th in the tenth byte are dropped. -/
theorem C03_overlong_accepted :
    getU64 [0x80#8, 0x00#8] = some (0#64, []) ∧ getU64 [0x00#8] = some (0#64, []) ∧
    getU64 [0x80, 0x80, 0x80, 0x80, 0x80, 0x80, 0x80, 0x80, 0x80, 0x02] = some (0#64, []) := by
  decide

example : getU64 [0xFF#8, 0xFF#8] = none := by decide
example : getU64 (List.replicate 11 0x80#8) = none := by decide

/-! ## C04 -/

theorem C04_bits_roundtrip (bs : List Bool) (rest : Bytes) :
    getBits bs.length (putBits bs ++ rest) = some (bs, rest) ∧ (putBits bs).length = (bs.length + 7) / 8 :=
  ⟨getBits_put bs rest, putBits_length _ bs rfl⟩

theorem C04_short_string_roundtrip (valid : Bytes → Bool) (s : Bytes) (hv : valid s = true)
    (hlen : s.length ≤ 255) (rest : Bytes) :
    ∃ bs, putShortString s = some bs ∧ getShortString valid (bs ++ rest) = some (s, rest) :=
  getShortString_put valid s hv hlen rest

/-- Longer strings are rejected rather than truncated. -/
theorem C04_short_string_too_long (s : Bytes) (hlen : 255 < s.length) : putShortString s = none := by
  simp [putShortString]; omega

theorem C04_vec_roundtrip {α : Type} {P : α → Prop} {put : α → Bytes} {get : Parser α} (h : RoundTrips P put get) :
    RoundTrips (fun l : List α => (∀ a ∈ l, P a) ∧ l.length < 2 ^ 32) (putVec put) (getVec get) :=
  fun l hl rest => getVec_put h l hl.1 hl.2 rest

theorem C04_option_roundtrip {α : Type} {P : α → Prop} {put : α → Bytes} {get : Parser α}
    (h : RoundTrips P put get) :
    RoundTrips (fun o : Option α => ∀ a ∈ o, P a) (putOption put) (getOption get) :=
  fun o ho rest => getOption_put h o ho rest

theorem C04_opt_box_roundtrip {α : Type} {P : α → Prop} {put : α → Bytes} {get : Parser α}
    (h : RoundTrips P put get) :
    RoundTrips (fun o : Option α => ∀ a ∈ o, P a) (putOptBox put) (getOptBox get) :=
  fun o ho rest => getOptBox_put h o ho rest

theorem C04_u32_be_roundtrip (v : BitVec 32) (rest : Bytes) : getU32Be (putU32Be v ++ rest) = some (v, rest) :=
  getU32Be_put v rest

/-- C04 (finding): `get_option` reports a truncated or malformed payload as "absent" instead of an error. -/
theorem C04_option_swallows_errors : getOption getU32 [1#8, 0x80#8] = some (none, [0x80#8]) := by decide

example : getBits 11 (putBits [true, false, true, true, false, false, false, true, true, false, true] ++ [9#8])
    = some ([true, false, true, true, false, false, false, true, true, false, true], [9#8]) :=
  (C04_bits_roundtrip [true, false, true, true, false, false, false, true, true, false, true] [9#8]).1
example : getVec getI32 (putVec putI32 [5#32, BitVec.ofInt 32 (-3)] ++ [1#8])
    = some ([5#32, BitVec.ofInt 32 (-3)], [1#8]) :=
  C04_vec_roundtrip (P := fun _ => True) (fun a _ r => C02_i32_roundtrip a r) _ ⟨by simp, by decide⟩ _

end Verif
