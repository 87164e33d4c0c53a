import Verif.Proofs.WasmTime

set_option linter.unusedSimpArgs false
set_option linter.unusedVariables false

/-!
# C104: the clocks of the browser build

The specification is arithmetic of integers: a point in time is a number of nanoseconds, `t + d` is later by `d`, the next time of an
interval is the first `prev + k * interval` after now.
-/

namespace Verif
open WasmTime

/-- C104: the time between two instants is exact up to a millisecond, and asking for it panics exactly if the order is wrong; the same
holds for the system time with an error in place of the panic. -/
theorem C104_since (a b : Int) (h : a - b < 2 ^ 64 * 1000000) :
    (since a b = .panic ↔ a < b) ∧ (sysSince a b = .err ↔ a < b) ∧ since a b ≠ .err ∧ sysSince a b ≠ .panic ∧
    ∀ d : Nat, (since a b = .ok d ∨ sysSince a b = .ok d) → (d : Int) ≤ a - b ∧ a - b < d + 1000000 ∧ 1000000 ∣ d := by
  unfold since sysSince fromMillis milli
  by_cases hc : 0 ≤ a - b
  · rw [if_pos hc, if_neg (by omega)]
    refine ⟨⟨by simp, by omega⟩, ⟨by simp, by omega⟩, by simp, by simp, ?_⟩
    intro d hd
    have hd : min ((a - b).toNat / 1000000) (2 ^ 64 - 1) * 1000000 = d := by
      rcases hd with hd | hd <;> exact Outcome.ok.inj hd
    rw [Nat.min_eq_left (by omega)] at hd
    omega
  · rw [if_neg hc, if_pos (by omega)]
    refine ⟨⟨by omega, by simp⟩, ⟨by omega, by simp⟩, by simp, by simp, ?_⟩
    intro d hd
    simp at hd

example : since 7500000 2000000 = .ok 5000000 := by rfl

/-- C104: adding a duration and asking for the time between gives the duration up to a millisecond; adding and taking away cancel. -/
theorem C104_add (t : Int) (d : Nat) (h : d < 2 ^ 64 * 1000000) :
    since (add t d) t = .ok (d / 1000000 * 1000000) ∧ sysSince (add t d) t = .ok (d / 1000000 * 1000000) ∧
    sub (add t d) d = t ∧ add (sub t d) d = t ∧ add t d ≤ t + d ∧ t + d < add t d + 1000000 := by
  unfold since sysSince add sub fromMillis milli
  have e : (t + ((d / 1000000 : Nat) : Int) * (1000000 : Nat) - t) = ((d / 1000000 * 1000000 : Nat) : Int) := by omega
  rw [e, if_pos (by omega), if_neg (by omega), Int.toNat_natCast, Nat.mul_div_cancel _ (by decide), Nat.min_eq_left (by omega)]
  refine ⟨rfl, rfl, ?_, ?_, ?_, ?_⟩ <;> omega

example : add 500000 2900000 = 2500000 := by rfl

/-- C104: the time since an instant, at a later time, is exact up to a millisecond. -/
theorem C104_elapsed (now t : Int) (h1 : t ≤ now) (h2 : now - t < 2 ^ 64 * 1000000) :
    ∃ d : Nat, elapsed now t = .ok d ∧ (d : Int) ≤ now - t ∧ now - t < d + 1000000 := by
  obtain ⟨a, _, c, _, e⟩ := C104_since now t h2
  unfold elapsed
  rcases hs : since now t with d | _ | _
  · exact ⟨d, rfl, (e d (Or.inl hs)).1, (e d (Or.inl hs)).2.1⟩
  · exact absurd hs c
  · exact absurd (a.1 hs) (by omega)

example : elapsed 1000000000 400000000 = .ok 600000000 := by rfl

/-- C104, violation: `SystemTime::elapsed` has its arguments the wrong way round; as soon as any time has passed it fails, and for a
time in the future it gives the time until then. -/
theorem C104_system_elapsed_violates (now t : Int) (h : now - t < 2 ^ 64 * 1000000) (h' : t - now < 2 ^ 64 * 1000000) :
    (t < now → sysElapsed now t = .err) ∧
    (now ≤ t → ∃ d : Nat, sysElapsed now t = .ok d ∧ (d : Int) ≤ t - now ∧ t - now < d + 1000000) := by
  obtain ⟨_, b, _, d, e⟩ := C104_since t now h'
  unfold sysElapsed
  refine ⟨b.2, fun hc => ?_⟩
  rcases hs : sysSince t now with x | _ | _
  · exact ⟨x, rfl, (e x (Or.inr hs)).1, (e x (Or.inr hs)).2.1⟩
  · exact absurd (b.1 hs) (by omega)
  · exact absurd hs d

example : sysElapsed 1700000000001 1700000000000 = .err := (C104_system_elapsed_violates _ _ (by decide) (by decide)).1 (by decide)

/-- C104, partial (for intervals of whole milliseconds): the next time of an interval is the first one after now. -/
theorem C104_next_partial (prev now t : Int) (k : Nat) (h : nextInterval prev now (k * 1000000) = .ok t) (hn : prev ≤ now)
    (hb : now - prev < 2 ^ 64 * 1000000) :
    now < t ∧ ∃ m : Nat, 1 ≤ m ∧ t = prev + (k * m : Nat) * 1000000 ∧ (1 < m → prev + (k * (m - 1) : Nat) * 1000000 ≤ now) := by
  rcases nextInterval_cases h hn (by omega) with ⟨h1, h2⟩ | ⟨h1, h2, h3⟩
  · refine ⟨h2 ▸ h1, 1, Nat.le_refl 1, ?_, fun x => absurd x (by decide)⟩
    rw [h2, add_whole, Nat.mul_one]
  · have hd : (now - prev).toNat / 1000000 * 1000000 / (k * 1000000) = (now - prev).toNat / 1000000 / k :=
      Nat.mul_div_mul_right _ _ (by decide)
    rw [hd, Nat.mul_right_comm, add_whole] at h3
    generalize hS : (now - prev).toNat / 1000000 = S at h3
    obtain ⟨e1, e2⟩ := first_multiple S k (by omega)
    refine ⟨?_, S / k + 1, Nat.le_add_left 1 _, h3, fun _ => ?_⟩
    · generalize k * (S / k + 1) = a at *
      omega
    · rw [Nat.add_sub_cancel]
      generalize k * (S / k) = a at *
      omega

example : nextInterval 100000000 137000000 10000000 = .ok 140000000 := by rfl

/-- C104: the next time of an interval is there for all times up to 2^64 nanoseconds after the previous one, unless the interval has
expired and is 0 or has been missed 2^32 times; then, and for longer times, there is a panic. -/
theorem C104_next_ok (prev now : Int) (i : Nat) (hn : prev ≤ now) (hb : now - prev < 2 ^ 64 * 1000000) :
    nextInterval prev now i ≠ .err ∧
    ((∃ t, nextInterval prev now i = .ok t) ↔
      now < prev + (i / 1000000 * 1000000 : Nat) ∨
        (0 < i ∧ i < 2 ^ 64 ∧ (now - prev).toNat / 1000000 * 1000000 < 2 ^ 64 ∧
          (now - prev).toNat / 1000000 * 1000000 < i * (2 ^ 32 - 1))) :=
  nextInterval_ok (since_ok hn (by omega))

example : nextInterval 0 86400000000000 1000000 = .ok 86400001000000 := by rfl

/-- C104, violation: the next time of an interval shorter than a millisecond is never after now once it has expired, so the interval
fires again at once. -/
theorem C104_next_violates (prev now t : Int) (i : Nat) (h : nextInterval prev now i = .ok t) (hi : i < 1000000) (hn : prev ≤ now)
    (hb : now - prev < 2 ^ 64 * 1000000) : t ≤ now := by
  rcases nextInterval_cases h hn (by omega) with ⟨h1, h2⟩ | ⟨h1, h2, h3⟩
  · unfold add milli at h1
    omega
  · generalize hS : (now - prev).toNat / 1000000 = S at h3
    have e := short_multiple S i hi
    rw [h3]
    unfold add milli
    generalize i * (S * 1000000 / i + 1) / 1000000 = a at *
    omega

example : nextInterval 0 10900000 500000 = .ok 10000000 := by rfl

/-- C104, violation: an interval of a fraction of a millisecond more than a whole number can be in the past too, and is not a multiple
of the interval. -/
theorem C104_fraction_violates : nextInterval 0 3500000 1300000 = .ok 3000000 := by rfl

end Verif
