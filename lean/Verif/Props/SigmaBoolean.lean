import Verif.Proofs.SigmaBoolean

/-! # C15–C16: sigma propositions -/

namespace Verif
open Spec SigmaBoolean

/-! ## C15 -/

/-- C15: every proposition within the size bounds of its type is read back exactly, whatever follows in the stream. -/
theorem C15_roundtrip {G : Type} [DecidableEq G] (pc : PointCodec G) (t : SigmaBoolean G) (hb : Bounded t)
    (rest : Bytes) : parse pc (ser pc t ++ rest) = some (t, rest) :=
  parse_ser pc t hb rest

/-- C15: different propositions never share an encoding, even with different continuations. -/
theorem C15_prefix_free {G : Type} [DecidableEq G] (pc : PointCodec G) (t u : SigmaBoolean G) (ht : Bounded t)
    (hu : Bounded u) (r r' : Bytes) (e : ser pc t ++ r = ser pc u ++ r') : t = u ∧ r = r' :=
  RoundTrips.injective (P := Bounded) (fun a h rest => parse_ser pc a h rest) ht hu e

/-- C15: everything the reader accepts is within the bounds, so it can be written and read again. -/
theorem C15_parsed_bounded {G : Type} [DecidableEq G] (pc : PointCodec G) (s : Bytes) (t : SigmaBoolean G) (r : Bytes)
    (e : parse pc s = some (t, r)) (rest : Bytes) :
    Bounded t ∧ parse pc (ser pc t ++ rest) = some (t, rest) :=
  ⟨parse_bounded pc s t r e, parse_ser pc t (parse_bounded pc s t r e) rest⟩

/-- Finding for C15: the reader takes the threshold modulo 256: bytes asking for 257 signatures out of two are read as
1 out of two, so the two byte strings below are read as the same proposition. -/
theorem C15_threshold_truncated :
    parse toyCodec ([152#8] ++ putU16 257 ++ putU16 2 ++ [211#8, 210#8])
        = some (.cth 1 [.trivial true, .trivial false], []) ∧
      parse toyCodec ([152#8] ++ putU16 1 ++ putU16 2 ++ [211#8, 210#8])
        = some (.cth 1 [.trivial true, .trivial false], []) := by
  decide +kernel

/-- A three level proposition meeting the hypotheses of C15. -/
example : Bounded (.cth 2 [.dlog (1 : Fin 3), .cand [.dlog 2, .dht 0 1 2 1], .cor [.trivial true, .dlog 0]]) := by
  simp [Bounded, BoundedList]

example : ser toyCodec (.cor [.trivial true, .trivial false]) = [151#8, 2, 211, 210] := by decide +kernel
example : parse toyCodec [151#8, 2, 211, 210, 7] = some (.cor [.trivial true, .trivial false], [7#8]) := by
  decide +kernel

/-! ## C16 -/

/-- C16: `Cand::normalized` returns (never panics) a proposition provable exactly when all items are. -/
theorem C16_cand {G : Type} (items : List (SigmaBoolean G)) (h2 : 2 ≤ items.length) (h255 : items.length ≤ 255) :
    ∃ t, candNormalized items = .ok t ∧
      (∀ σ, holds σ t = true ↔ ∀ c ∈ items, holds σ c = true) ∧
      (noTrivialChild t ∨ t ∈ items) ∧ ((∀ c ∈ items, Bounded c) → Bounded t) := by
  obtain ⟨t, h1, hm, h3, h4⟩ := candNormalized_good items h255
  refine ⟨t, h1, fun σ => ?_, h3, h4⟩
  rw [hm σ]; exact holdsCount_all σ items

/-- C16: `Cor::normalized` returns (never panics) a proposition provable exactly when some item is. -/
theorem C16_cor {G : Type} (items : List (SigmaBoolean G)) (h2 : 2 ≤ items.length) (h255 : items.length ≤ 255) :
    ∃ t, corNormalized items = .ok t ∧
      (∀ σ, holds σ t = true ↔ ∃ c ∈ items, holds σ c = true) ∧
      (noTrivialChild t ∨ t ∈ items) ∧ ((∀ c ∈ items, Bounded c) → Bounded t) := by
  obtain ⟨t, h1, hm, h3, h4⟩ := corNormalized_good items (by intro e; simp [e] at h2) h255
  refine ⟨t, h1, fun σ => ?_, h3, h4⟩
  rw [hm σ]; exact holdsCount_any σ items

/-- C16: `Cthreshold::reduce` returns (never panics, never underflows) a proposition provable exactly when at least
`k` of the children are. -/
theorem C16_threshold {G : Type} (k : Byte) (children : List (SigmaBoolean G)) (h2 : 2 ≤ children.length)
    (h255 : children.length ≤ 255) :
    ∃ t, reduce k children = .ok t ∧
      (∀ σ, holds σ t = true ↔ k.toNat ≤ children.countP (fun c => holds σ c)) ∧
      (noTrivialChild t ∨ t ∈ children) ∧ ((∀ c ∈ children, Bounded c) → Bounded t) := by
  unfold reduce
  split
  · refine ⟨_, rfl, fun σ => ?_, Or.inl True.intro, fun _ => True.intro⟩
    simp [holds]; omega
  split
  · refine ⟨_, rfl, fun σ => ?_, Or.inl True.intro, fun _ => True.intro⟩
    have := List.countP_le_length (p := fun c => holds σ c) (l := children)
    simp [holds]; omega
  · obtain ⟨t, h1, hm, h3, h4⟩ := reduceLoop_good children k.toNat children.length [] (by omega) (by omega) h2 h255
      (by simp) (by simp)
    refine ⟨t, h1, fun σ => ?_, h3, h4⟩
    rw [hm σ]; simp only [List.nil_append, decide_eq_true_eq, holdsCount_countP]

example : reduce 2 [.trivial true, .dlog (1 : Fin 3), .trivial false, .dlog 2, .dlog 0]
    = .ok (.cor [.dlog 1, .dlog 2, .dlog 0]) := by decide +kernel
example : reduce 3 [.dlog (1 : Fin 3), .trivial true, .dlog 2, .dlog 0, .dlog 0]
    = .ok (.cth 2 [.dlog 1, .dlog 2, .dlog 0, .dlog 0]) := by decide +kernel
example : reduce 3 [.dlog (1 : Fin 3), .trivial false, .dlog 2, .dlog 0]
    = .ok (.cand [.dlog 1, .dlog 2, .dlog 0]) := by decide +kernel

/-- The disjunction `t ∈ items` in C16 is needed: a single surviving item is returned as it is, and may itself have a
constant child (it is not normalized again). -/
example : candNormalized [.trivial true, .cand [.trivial true, .dlog (1 : Fin 3)]]
    = .ok (.cand [.trivial true, .dlog 1]) := by decide +kernel

end Verif
