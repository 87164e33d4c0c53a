import Verif.Model.WasmTime

/-!
# Lemmas on the clocks of the browser build
-/

namespace Verif.WasmTime

theorem since_ok {now prev : Int} (hn : prev ≤ now) (hb : (now - prev).toNat / 1000000 ≤ 18446744073709551615) :
    since now prev = .ok ((now - prev).toNat / 1000000 * 1000000) := by
  unfold since fromMillis milli
  rw [if_pos (Int.sub_nonneg_of_le hn), Nat.min_eq_left hb]

theorem nextInterval_cases {prev now t : Int} {i : Nat} (h : nextInterval prev now i = .ok t) (hn : prev ≤ now)
    (hb : (now - prev).toNat / 1000000 ≤ 18446744073709551615) :
    (now < add prev i ∧ t = add prev i) ∨
      (add prev i ≤ now ∧ i ≠ 0 ∧ t = add prev (i * ((now - prev).toNat / 1000000 * 1000000 / i + 1))) := by
  unfold nextInterval at h
  simp only [since_ok hn hb, Outcome.bind_ok] at h
  generalize (now - prev).toNat / 1000000 * 1000000 = s at h ⊢
  by_cases hc : add prev i > now
  · rw [if_pos hc] at h
    exact Or.inl ⟨hc, (Outcome.ok.inj h).symm⟩
  · rw [if_neg hc] at h
    refine Or.inr ⟨Int.not_lt.1 hc, ?_⟩
    cases h1 : toNanos s with
    | none => rw [h1] at h; cases h
    | some a =>
      cases h2 : toNanos i with
      | none => rw [h1, h2] at h; cases h
      | some b =>
        rw [h1, h2] at h
        have ea : s = a := by
          unfold toNanos at h1
          split at h1
          · exact Option.some.inj h1
          · cases h1
        have eb : i = b := by
          unfold toNanos at h2
          split at h2
          · exact Option.some.inj h2
          · cases h2
        subst ea eb
        simp only [] at h
        by_cases h0 : i = 0
        · rw [if_pos h0] at h; cases h
        · rw [if_neg h0] at h
          by_cases hm : s / i + 1 < 2 ^ 32
          · rw [if_pos hm] at h
            exact ⟨h0, (Outcome.ok.inj h).symm⟩
          · rw [if_neg hm] at h; cases h

/-- The first multiple of `k` above `S`. -/
theorem first_multiple (S k : Nat) (hk : 0 < k) : k * (S / k) ≤ S ∧ S < k * (S / k + 1) :=
  ⟨Nat.mul_div_le S k, Nat.lt_mul_div_succ S hk⟩

theorem short_multiple (S i : Nat) (hi : i < 1000000) : i * (S * 1000000 / i + 1) / 1000000 ≤ S := by
  have e1 : i * (S * 1000000 / i) ≤ S * 1000000 := Nat.mul_div_le _ _
  have : i * (S * 1000000 / i + 1) < (S + 1) * 1000000 := by rw [Nat.mul_add]; omega
  exact Nat.lt_succ_iff.1 ((Nat.div_lt_iff_lt_mul (by decide)).2 this)

theorem add_whole (t : Int) (k : Nat) : add t (k * 1000000) = t + (k : Int) * 1000000 := by
  unfold add milli
  rw [Nat.mul_div_cancel _ (by decide)]
  rfl

theorem nextInterval_ok {prev now : Int} {i s : Nat} (hs0 : since now prev = .ok s) :
    nextInterval prev now i ≠ .err ∧
    ((∃ t, nextInterval prev now i = .ok t) ↔
      now < prev + (i / 1000000 * 1000000 : Nat) ∨ (0 < i ∧ i < 2 ^ 64 ∧ s < 2 ^ 64 ∧ s < i * (2 ^ 32 - 1))) := by
  have ha : add prev i = prev + (i / 1000000 * 1000000 : Nat) := by
    unfold add milli
    omega
  unfold nextInterval
  simp only [hs0, Outcome.bind_ok]
  rw [ha]
  by_cases hc : now < prev + (i / 1000000 * 1000000 : Nat)
  · rw [if_pos hc]
    exact ⟨by simp, ⟨fun _ => .inl hc, fun _ => ⟨_, rfl⟩⟩⟩
  · rw [if_neg hc]
    unfold toNanos
    by_cases hs : s < 2 ^ 64
    · rw [if_pos hs]
      by_cases hi : i < 2 ^ 64
      · rw [if_pos hi]
        simp only []
        by_cases h0 : i = 0
        · rw [if_pos h0]
          exact ⟨by simp, ⟨fun ⟨_, h⟩ => (by cases h), fun h => by rcases h with h | h <;> omega⟩⟩
        · rw [if_neg h0]
          have hm : s / i + 1 < 2 ^ 32 ↔ s < i * (2 ^ 32 - 1) := by
            rw [Nat.mul_comm, ← Nat.div_lt_iff_lt_mul (Nat.pos_of_ne_zero h0)]
            omega
          by_cases h1 : s / i + 1 < 2 ^ 32
          · rw [if_pos h1]
            exact ⟨by simp [Outcome.pure_eq], ⟨fun _ => .inr ⟨by omega, hi, hs, hm.1 h1⟩, fun _ => ⟨_, rfl⟩⟩⟩
          · rw [if_neg h1]
            exact ⟨by simp, ⟨fun ⟨_, h⟩ => (by cases h), fun h => by
              rcases h with h | h
              · exact absurd h hc
              · exact absurd (hm.2 h.2.2.2) h1⟩⟩
      · rw [if_neg hi]
        exact ⟨by simp, ⟨fun ⟨_, h⟩ => (by cases h), fun h => by
          rcases h with h | h
          · exact absurd h hc
          · exact absurd h.2.1 hi⟩⟩
    · rw [if_neg hs]
      exact ⟨by simp, ⟨fun ⟨_, h⟩ => (by cases h), fun h => by
        rcases h with h | h
        · exact absurd h hc
        · exact absurd h.2.2.1 hs⟩⟩

end Verif.WasmTime
