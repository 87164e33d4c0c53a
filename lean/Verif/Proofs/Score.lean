import Verif.Proofs.Nipopow

set_option linter.unusedSimpArgs false
set_option linter.unusedVariables false

namespace Verif
open Merkle Spec
variable {G : Type}

theorem countAt_anti (lv : List (BitVec 32)) {a b : Nat} (h : a ≤ b) : countAt lv b ≤ countAt lv a := by
  unfold countAt
  rw [← List.countP_eq_length_filter, ← List.countP_eq_length_filter]
  apply List.countP_mono_left
  intro x _ hx
  simp only [decide_eq_true_eq] at *
  omega

theorem countAt_zero (lv : List (BitVec 32)) : countAt lv 0 = lv.length := by
  unfold countAt
  rw [List.filter_eq_self.2 (by simp)]

/-- What the loop of `best_arg` returns. -/
theorem bestArgLoop_ok (lv : List (BitVec 32)) (m level : Nat) (r : List (Nat × Nat)) (h : bestArgLoop lv m level = .ok r) :
    ∃ j, r = (List.range j).map (fun i => (level + i, countAt lv (level + i))) ∧ (∀ i < j, m ≤ countAt lv (level + i)) ∧
      countAt lv (level + j) < m := by
  fun_induction bestArgLoop lv m level generalizing r with
  | case1 level hc hlt ih =>
    cases hb : bestArgLoop lv m (level + 1) with
    | ok r' =>
      rw [hb] at h
      obtain rfl : _ = r := by injection h
      obtain ⟨j, h1, h2, h3⟩ := ih r' hb
      refine ⟨j + 1, ?_, ?_, ?_⟩
      · rw [List.range_succ_eq_map, List.map_cons, List.map_map, h1]
        congr 1
        apply List.map_congr_left
        intro i _
        simp only [Function.comp]
        rw [show level + 1 + i = level + (i + 1) from by omega]
      · intro i hi
        cases i with
        | zero => exact hc
        | succ i => have := h2 i (by omega); rwa [show level + 1 + i = level + (i + 1) from by omega] at this
      · rwa [show level + 1 + j = level + (j + 1) from by omega] at h3
    | err => rw [hb] at h; cases h
    | panic => rw [hb] at h; cases h
  | case2 => cases h
  | case3 level hc =>
    obtain rfl : _ = r := by injection h
    exact ⟨0, rfl, by omega, by simp; omega⟩

theorem bestArgLoop_no_err (lv : List (BitVec 32)) (m level : Nat) : bestArgLoop lv m level ≠ .err := by
  fun_induction bestArgLoop lv m level with
  | case1 level hc hlt ih =>
    cases hb : bestArgLoop lv m (level + 1) with
    | ok r' => exact fun h => by cases h
    | err => exact absurd hb ih
    | panic => exact fun h => by cases h
  | case2 => exact fun h => by cases h
  | case3 => exact fun h => by cases h

theorem bestArgLoop_ends (lv : List (BitVec 32)) (m level : Nat) (hm : countAt lv (2 ^ 32 - 1) < m) (hl : level < 2 ^ 32) :
    ∃ r, bestArgLoop lv m level = .ok r := by
  fun_induction bestArgLoop lv m level with
  | case1 level hc hlt ih =>
    obtain ⟨r, hr⟩ := ih hlt
    rw [hr]
    exact ⟨_, rfl⟩
  | case2 level hc hlt =>
    have : level = 2 ^ 32 - 1 := by omega
    subst this
    omega
  | case3 => exact ⟨_, rfl⟩

/-- The loop does not end if all levels have blocks enough. -/
theorem bestArgLoop_never (lv : List (BitVec 32)) (m level : Nat) (hm : m ≤ countAt lv (2 ^ 32 - 1)) (hl : level < 2 ^ 32) :
    bestArgLoop lv m level = .panic := by
  fun_induction bestArgLoop lv m level with
  | case1 level hc hlt ih => rw [ih hlt]; rfl
  | case2 => rfl
  | case3 level hc =>
    exfalso
    have := countAt_anti lv (show level ≤ 2 ^ 32 - 1 by omega)
    omega

theorem scores_ok (mode : Mode) : ∀ l : List (Nat × Nat), (∀ p ∈ l, 2 ^ p.1 < 2 ^ 64 ∧ 2 ^ p.1 * p.2 < 2 ^ 64) →
    scores mode l = .ok (l.map fun p => 2 ^ p.1 * p.2) := by
  intro l
  induction l with
  | nil => intro _; rfl
  | cons p l ih =>
    intro h
    simp only [scores]
    rw [score.eq_def, if_pos (h p (by simp)), ih (fun q hq => h q (by simp [hq]))]
    rfl

theorem scores_panic : ∀ l : List (Nat × Nat), (∃ p ∈ l, 2 ^ 64 ≤ 2 ^ p.1) → scores .debug l = .panic := by
  intro l
  induction l with
  | nil => rintro ⟨p, hp, _⟩; simp at hp
  | cons q l ih =>
    rintro ⟨p, hp, h⟩
    simp only [scores, score]
    rcases List.mem_cons.1 hp with rfl | hp
    · rw [if_neg (by omega)]; rfl
    · rw [ih ⟨p, hp, h⟩]
      split <;> rfl

theorem foldl_max (l : List Nat) : ∀ a, (∀ x ∈ l, x ≤ l.foldl max a) ∧ a ≤ l.foldl max a ∧ (l.foldl max a = a ∨ l.foldl max a ∈ l) := by
  induction l with
  | nil => intro a; simp
  | cons y l ih =>
    intro a
    obtain ⟨h1, h2, h3⟩ := ih (max a y)
    simp only [List.foldl_cons]
    refine ⟨?_, by omega, ?_⟩
    · intro x hx
      rcases List.mem_cons.1 hx with rfl | hx
      · omega
      · exact h1 x hx
    · rcases h3 with h3 | h3
      · rw [h3]
        rcases Nat.le_total a y with h | h
        · right; rw [Nat.max_eq_right h]; simp
        · left; exact Nat.max_eq_left h
      · right; exact List.mem_cons_of_mem _ h3

theorem levelsOf_length (W : Pow) : ∀ (c : List (Header G)) lv, levelsOf W c = .ok lv → lv.length = c.length := by
  intro c
  induction c with
  | nil => intro lv h; cases h; rfl
  | cons x c ih =>
    intro lv h
    simp only [levelsOf] at h
    cases hx : W.maxLevel x with
    | ok a =>
      rw [hx] at h
      cases hc : levelsOf W c with
      | ok r =>
        rw [hc] at h
        obtain rfl : _ = lv := by injection h
        simp [ih r hc]
      | err => rw [hc] at h; cases h
      | panic => rw [hc] at h; cases h
    | err => rw [hx] at h; cases h
    | panic => rw [hx] at h; cases h

theorem levelsOf_spec (W : Pow) (lv : Header G → Nat) : ∀ c : List (Header G), Levels W lv c →
    ∃ ls, levelsOf W c = .ok ls ∧ ls.map BitVec.toNat = c.map lv ∧ ∀ l ∈ ls, l.toNat < 2 ^ 31 := by
  intro c
  induction c with
  | nil => intro _; exact ⟨[], rfl, rfl, by simp⟩
  | cons x c ih =>
    intro h
    obtain ⟨ls, h1, h2, h3⟩ := ih (fun y hy => h y (by simp [hy]))
    obtain ⟨_, l, h4, h5⟩ := h x (by simp)
    have h6 : l.toNat = lv x ∧ l.toNat < 2 ^ 31 := by
      have := BitVec.toInt_eq_toNat_cond l
      have := l.isLt
      split at * <;> omega
    refine ⟨l :: ls, ?_, by simp [h2, h6.1], ?_⟩
    · simp only [levelsOf]; rw [h4, h1]; rfl
    · intro y hy
      rcases List.mem_cons.1 hy with rfl | hy
      · exact h6.2
      · exact h3 y hy

theorem countAt_atLeast (ls : List (BitVec 32)) (μ : Nat) : countAt ls μ = atLeast (ls.map BitVec.toNat) μ := by
  unfold countAt atLeast
  rw [← List.countP_eq_length_filter, List.countP_map]
  rfl

theorem bestArg_spec (mode : Mode) (W : Pow) (lv : Header G → Nat) (c : List (Header G)) (m : Nat) (hm : 1 ≤ m) (hl : Levels W lv c)
    (ho : ∀ μ, μ = 0 ∨ m ≤ atLeast (c.map lv) μ → 2 ^ μ * atLeast (c.map lv) μ < 2 ^ 64) :
    ∃ x, bestArg mode W c m = .ok x ∧ BestScore (c.map lv) m x := by
  obtain ⟨ls, h1, h2, h3⟩ := levelsOf_spec W lv c hl
  have htop : countAt ls (2 ^ 32 - 1) < m := by
    have : countAt ls (2 ^ 32 - 1) = 0 := by
      unfold countAt
      rw [List.length_eq_zero_iff, List.filter_eq_nil_iff]
      intro a ha
      have := h3 a ha
      simp; omega
    omega
  obtain ⟨r, hr⟩ := bestArgLoop_ends ls m 1 htop (by decide)
  obtain ⟨j, e1, e2, e3⟩ := bestArgLoop_ok ls m 1 r hr
  have hlen := levelsOf_length W c ls h1
  have hz : countAt ls 0 = c.length := by rw [countAt_zero, hlen]
  have hat : ∀ μ, atLeast (c.map lv) μ = countAt ls μ := by intro μ; rw [countAt_atLeast, h2]
  have hps : ((0, c.length) :: r) = (List.range (j + 1)).map fun i => (i, countAt ls i) := by
    rw [List.range_succ_eq_map, List.map_cons, List.map_map, hz, e1]
    congr 1
    apply List.map_congr_left
    intro i _
    simp only [Function.comp]
    rw [Nat.add_comm 1 i]
  have hvalid : ∀ i < j + 1, i = 0 ∨ m ≤ countAt ls i := by
    intro i hi
    cases i with
    | zero => exact .inl rfl
    | succ i => right; have := e2 i (by omega); rwa [Nat.add_comm 1 i] at this
  have hpow : ∀ p ∈ ((0, c.length) :: r), 2 ^ p.1 < 2 ^ 64 ∧ 2 ^ p.1 * p.2 < 2 ^ 64 := by
    intro p hp
    rw [hps] at hp
    obtain ⟨i, hi, rfl⟩ := List.mem_map.1 hp
    have hv := hvalid i (List.mem_range.1 hi)
    have := ho i (by rw [hat]; exact hv)
    rw [hat] at this
    refine ⟨?_, this⟩
    rcases hv with rfl | hv
    · show 2 ^ 0 < 2 ^ 64; decide
    · exact Nat.lt_of_le_of_lt (Nat.le_mul_of_pos_right _ (by omega)) this
  refine ⟨(((0, c.length) :: r).map fun p => 2 ^ p.1 * p.2).foldl max 0, ?_, ?_, ?_⟩
  · unfold bestArg
    rw [h1]
    show (bestArgLoop ls m 1 >>= _) = _
    rw [hr]
    show (scores mode ((0, c.length) :: r) >>= _) = _
    rw [scores_ok mode _ hpow]
    rfl
  · obtain ⟨_, _, h⟩ := foldl_max (((0, c.length) :: r).map fun p => 2 ^ p.1 * p.2) 0
    have hmem : ∃ p ∈ ((0, c.length) :: r), (((0, c.length) :: r).map fun p => 2 ^ p.1 * p.2).foldl max 0 = 2 ^ p.1 * p.2 := by
      rcases h with h | h
      · refine ⟨(0, c.length), by simp, ?_⟩
        have := (foldl_max (((0, c.length) :: r).map fun p => 2 ^ p.1 * p.2) 0).1 (2 ^ 0 * c.length) (by simp)
        simp only at this ⊢
        omega
      · obtain ⟨p, hp, e⟩ := List.mem_map.1 h
        exact ⟨p, hp, e.symm⟩
    obtain ⟨p, hp, e⟩ := hmem
    rw [e]
    rw [hps] at hp
    obtain ⟨i, hi, rfl⟩ := List.mem_map.1 hp
    refine ⟨i, ?_, ?_⟩
    · rw [hat]; exact hvalid i (List.mem_range.1 hi)
    · rw [hat]
  · intro μ hμ
    rw [hat] at hμ ⊢
    have hlt : μ < j + 1 := by
      rcases hμ with rfl | hμ
      · omega
      · by_contra hc
        have := countAt_anti ls (show 1 + j ≤ μ by omega)
        omega
    apply (foldl_max _ 0).1
    rw [hps, List.map_map]
    exact List.mem_map.2 ⟨μ, List.mem_range.2 hlt, rfl⟩

theorem bestScore_unique {lv : List Nat} {m x y : Nat} (hx : BestScore lv m x) (hy : BestScore lv m y) : x = y := by
  obtain ⟨a, ha, rfl⟩ := hx.reached
  obtain ⟨b, hb, rfl⟩ := hy.reached
  have h1 := hx.bound b hb
  have h2 := hy.bound a ha
  omega

end Verif
