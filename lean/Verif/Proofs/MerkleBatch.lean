import Verif.Proofs.MerkleProof
import Verif.Proofs.SortedSet

set_option linter.unusedSimpArgs false
set_option linter.unusedVariables false

namespace Verif.Merkle
open Spec

/-- Positions of the neighbours that must come from the proof. -/
def needs : List Nat → List Nat
  | [] => []
  | [p] => [sib p]
  | p :: q :: r => if p / 2 = q / 2 then needs r else sib p :: needs (q :: r)
termination_by l => l.length

/-- Positions one level up. -/
def parents : List Nat → List Nat
  | [] => []
  | [p] => [p / 2]
  | p :: q :: r => if p / 2 = q / 2 then p / 2 :: parents r else p / 2 :: parents (q :: r)
termination_by l => l.length

theorem sib_div (p : Nat) : sib p / 2 = p / 2 := by unfold sib; split <;> omega
theorem sib_ne (p : Nat) : sib p ≠ p := by unfold sib; split <;> omega
theorem sib_sib (p : Nat) : sib (sib p) = p := by
  unfold sib
  by_cases h : p % 2 = 0
  · rw [if_pos h, if_neg (by omega)]; omega
  · rw [if_neg h, if_pos (by omega)]; omega
theorem eq_or_sib {p q : Nat} (h : p / 2 = q / 2) : q = p ∨ q = sib p := by
  unfold sib; split <;> omega

theorem mem_parents : ∀ (S : List Nat) (x : Nat), x ∈ parents S ↔ ∃ p ∈ S, x = p / 2 := by
  intro S
  fun_induction parents S with
  | case1 => simp
  | case2 p => simp
  | case3 p q r h ih =>
    intro x
    simp only [List.mem_cons, ih]
    constructor
    · rintro (h | ⟨y, hy, h⟩)
      · exact ⟨p, by simp, h⟩
      · exact ⟨y, by simp [hy], h⟩
    · rintro ⟨y, (rfl | rfl | hy), h'⟩
      · exact Or.inl h'
      · left; rw [h', ← h]
      · exact Or.inr ⟨y, hy, h'⟩
  | case4 p q r h ih =>
    intro x
    rw [List.mem_cons, ih]
    constructor
    · rintro (h | ⟨y, hy, h⟩)
      · exact ⟨p, by simp, h⟩
      · exact ⟨y, by simp only [List.mem_cons] at hy ⊢; exact Or.inr hy, h⟩
    · rintro ⟨y, hy, h'⟩
      rcases List.mem_cons.1 hy with rfl | hy
      · exact Or.inl h'
      · exact Or.inr ⟨y, hy, h'⟩

theorem parents_sorted : ∀ (S : List Nat), Sorted S → Sorted (parents S) := by
  intro S
  fun_induction parents S with
  | case1 => intro _; simp [Sorted]
  | case2 p => intro _; simp [Sorted]
  | case3 p q r h ih =>
    intro hs
    have h1 := List.pairwise_cons.1 hs
    have h2 := List.pairwise_cons.1 h1.2
    refine List.pairwise_cons.2 ⟨?_, ih h2.2⟩
    intro x hx
    obtain ⟨y, hy, rfl⟩ := (mem_parents r x).1 hx
    have := h2.1 y hy
    have := h1.1 q (by simp)
    omega
  | case4 p q r h ih =>
    intro hs
    have h1 := List.pairwise_cons.1 hs
    refine List.pairwise_cons.2 ⟨?_, ih h1.2⟩
    intro x hx
    obtain ⟨y, hy, rfl⟩ := (mem_parents (q :: r) x).1 hx
    have h2 := List.pairwise_cons.1 h1.2
    have := h1.1 q (by simp)
    rcases List.mem_cons.1 hy with rfl | hy
    · omega
    · have := h2.1 y hy; omega

theorem mem_needs : ∀ (S : List Nat), Sorted S → ∀ x, x ∈ needs S ↔ sib x ∈ S ∧ x ∉ S := by
  intro S
  fun_induction needs S with
  | case1 => intro _ x; simp
  | case2 p =>
    intro _ x
    simp only [List.mem_singleton]
    constructor
    · rintro rfl; exact ⟨sib_sib p, sib_ne p⟩
    · rintro ⟨h, _⟩; rw [← h, sib_sib]
  | case3 p q r h ih =>
    intro hs x
    have h1 := List.pairwise_cons.1 hs
    have h2 := List.pairwise_cons.1 h1.2
    have hpq := h1.1 q (by simp)
    have hq : q = sib p := by rcases eq_or_sib h with h | h <;> omega
    rw [ih h2.2 x]
    simp only [List.mem_cons, not_or]
    constructor
    · rintro ⟨a, b⟩
      refine ⟨Or.inr (Or.inr a), ?_, ?_, b⟩
      · rintro rfl; rw [← hq] at a; have := h2.1 q a; omega
      · rintro rfl; rw [hq, sib_sib] at a; have := h2.1 p a; omega
    · rintro ⟨a, b, c, d⟩
      refine ⟨?_, d⟩
      rcases a with a | a | a
      · exfalso; apply c; rw [hq, ← a, sib_sib]
      · exfalso; apply b; rw [← sib_sib x, a, hq, sib_sib]
      · exact a
  | case4 p q r h ih =>
    intro hs x
    have h1 := List.pairwise_cons.1 hs
    rw [List.mem_cons, ih h1.2 x]
    have hfar : ∀ y ∈ q :: r, y / 2 ≠ p / 2 := by
      intro y hy
      have h2 := List.pairwise_cons.1 h1.2
      have := h1.1 q (by simp)
      rcases List.mem_cons.1 hy with rfl | hy
      · omega
      · have := h2.1 y hy; omega
    constructor
    · rintro (rfl | ⟨a, b⟩)
      · refine ⟨by rw [sib_sib]; simp, ?_⟩
        intro hc
        rcases List.mem_cons.1 hc with e | e
        · exact sib_ne p e
        · exact hfar _ e (sib_div p)
      · refine ⟨List.mem_cons_of_mem _ a, ?_⟩
        intro hc
        rcases List.mem_cons.1 hc with e | e
        · subst e; exact hfar _ a (sib_div x)
        · exact b e
    · rintro ⟨a, b⟩
      rcases List.mem_cons.1 a with e | e
      · left; rw [← e, sib_sib]
      · right; exact ⟨e, fun hc => b (List.mem_cons_of_mem _ hc)⟩

theorem needs_sorted : ∀ (S : List Nat), Sorted S → Sorted (needs S) := by
  intro S
  fun_induction needs S with
  | case1 => intro _; simp [Sorted]
  | case2 p => intro _; simp [Sorted]
  | case3 p q r h ih =>
    intro hs
    exact ih (List.pairwise_cons.1 (List.pairwise_cons.1 hs).2).2
  | case4 p q r h ih =>
    intro hs
    have h1 := List.pairwise_cons.1 hs
    refine List.pairwise_cons.2 ⟨?_, ih h1.2⟩
    intro x hx
    have hx' := ((mem_needs (q :: r) h1.2 x).1 hx).1
    have h2 := List.pairwise_cons.1 h1.2
    have hpq := h1.1 q (by simp)
    have hge : q ≤ sib x := by
      rcases List.mem_cons.1 hx' with e | e
      · omega
      · have := h2.1 _ e; omega
    have e1 := sib_div x
    have e2 := sib_div p
    omega

/-! ### The builder -/

theorem pruned_ok : ∀ (ns : List Nat) (s : List Nat), Sorted s → (∀ n ∈ ns, n ≠ 0) →
    ∃ b, pruned ns s = .ok b ∧ Sorted b ∧
      ∀ x, x ∈ b ↔ x ∈ s ∨ x ∈ ns ∨ ∃ n ∈ ns, getSibling n = some x := by
  intro ns
  induction ns with
  | nil => intro s hs _; exact ⟨s, rfl, hs, by simp⟩
  | cons n ns ih =>
    intro s hs h0
    have hn : n ≠ 0 := h0 n (by simp)
    obtain ⟨sb, hsb⟩ : ∃ sb, getSibling n = some sb := by
      unfold getSibling
      cases n with
      | zero => exact absurd rfl hn
      | succ n => simp only [getParent]; split <;> exact ⟨_, rfl⟩
    obtain ⟨b, h1, h2, h3⟩ := ih (setInsert sb (setInsert n s)) (sorted_setInsert _ _ (sorted_setInsert _ _ hs))
      (fun x hx => h0 x (by simp [hx]))
    refine ⟨b, ?_, h2, fun x => ?_⟩
    · unfold pruned; rw [hsb]; exact h1
    · rw [h3, mem_setInsert, mem_setInsert]
      constructor
      · rintro ((h | h | h) | h | ⟨m, hm, h⟩)
        · right; right; exact ⟨n, by simp, by rw [hsb, h]⟩
        · right; left; simp [h]
        · left; exact h
        · right; left; simp [h]
        · right; right; exact ⟨m, by simp [hm], h⟩
      · rintro (h | h | ⟨m, hm, h⟩)
        · left; right; right; exact h
        · rcases List.mem_cons.1 h with rfl | h
          · left; right; left; rfl
          · right; left; exact h
        · rcases List.mem_cons.1 hm with rfl | hm
          · left; left; rw [hsb] at h; cases h; rfl
          · right; right; exact ⟨m, hm, h⟩

theorem pruned_level (e : Nat) (S : List Nat) (hS : Sorted S) :
    ∃ b, pruned (S.map (2 ^ (e + 1) - 1 + ·)) [] = .ok b ∧
      b.filter (fun x => !(S.map (2 ^ (e + 1) - 1 + ·)).contains x) = (needs S).map (2 ^ (e + 1) - 1 + ·) ∧
      toSet (b.filterMap getParent) = (parents S).map (2 ^ e - 1 + ·) := by
  have hpos := Nat.two_pow_pos e
  have hps := Nat.pow_succ 2 e
  obtain ⟨b, h1, h2, h3⟩ := pruned_ok (S.map (2 ^ (e + 1) - 1 + ·)) [] List.Pairwise.nil (by
    intro n hn
    obtain ⟨p, _, rfl⟩ := List.mem_map.1 hn
    omega)
  have hmem : ∀ x, x ∈ b ↔ ∃ p, (p ∈ S ∨ sib p ∈ S) ∧ x = 2 ^ (e + 1) - 1 + p := by
    intro x
    rw [h3]
    constructor
    · rintro (h | h | ⟨n, hn, h⟩)
      · cases h
      · obtain ⟨p, hp, rfl⟩ := List.mem_map.1 h; exact ⟨p, Or.inl hp, rfl⟩
      · obtain ⟨p, hp, rfl⟩ := List.mem_map.1 hn
        rw [getSibling_pos] at h
        cases h
        exact ⟨sib p, Or.inr (by rw [sib_sib]; exact hp), rfl⟩
    · rintro ⟨p, hp | hp, rfl⟩
      · exact Or.inr (Or.inl (List.mem_map.2 ⟨p, hp, rfl⟩))
      · refine Or.inr (Or.inr ⟨_, List.mem_map.2 ⟨sib p, hp, rfl⟩, ?_⟩)
        rw [getSibling_pos, sib_sib]
  refine ⟨b, h1, ?_, ?_⟩
  · refine sorted_ext _ _ (sorted_filter _ h2) (sorted_map_add _ (needs_sorted S hS)) (fun x => ?_)
    simp only [List.mem_filter, hmem, List.mem_map, Bool.not_eq_true', List.contains_eq_mem, decide_eq_false_iff_not]
    constructor
    · rintro ⟨⟨p, hp, rfl⟩, hc⟩
      have hpS : p ∉ S := fun h => hc ⟨p, h, rfl⟩
      rcases hp with hp | hp
      · exact absurd hp hpS
      · exact ⟨p, (mem_needs S hS p).2 ⟨hp, hpS⟩, rfl⟩
    · rintro ⟨p, hp, rfl⟩
      have := (mem_needs S hS p).1 hp
      refine ⟨⟨p, Or.inr this.1, rfl⟩, ?_⟩
      rintro ⟨q, hq, hqe⟩
      have : q = p := by omega
      subst this
      exact ((mem_needs S hS q).1 hp).2 hq
  · refine sorted_ext _ _ (sorted_toSet _) (sorted_map_add _ (parents_sorted S hS)) (fun x => ?_)
    rw [mem_toSet, List.mem_filterMap, List.mem_map]
    constructor
    · rintro ⟨y, hy, hyx⟩
      obtain ⟨p, hp, rfl⟩ := (hmem y).1 hy
      rw [getParent_pos] at hyx
      cases hyx
      refine ⟨p / 2, (mem_parents S _).2 ?_, rfl⟩
      rcases hp with hp | hp
      · exact ⟨p, hp, rfl⟩
      · exact ⟨sib p, hp, (sib_div p).symm⟩
    · rintro ⟨y, hy, rfl⟩
      obtain ⟨p, hp, rfl⟩ := (mem_parents S y).1 hy
      exact ⟨2 ^ (e + 1) - 1 + p, (hmem _).2 ⟨p, Or.inl hp, rfl⟩, getParent_pos e p⟩

/-- The proof node for position `p` of level `k`. -/
def levelNode (H : HashFn) (leaves : List Bytes) (k p : Nat) : LevelNode :=
  { hash := (level H leaves k)[p]?, side := if p % 2 = 0 then Side.left else Side.right }

theorem needs_bound {H : HashFn} {leaves : List Bytes} {k : Nat} {S : List Nat} (hS : Sorted S) :
    ∀ p ∈ needs S, sib p ∈ S := fun p hp => ((mem_needs S hS p).1 hp).1

theorem diffNodes_level {H : HashFn} {leaves : List Bytes} {D : Nat} {t : Tree} (hp : IsHeap H leaves D t) {k e : Nat}
    (hk : k + (e + 1) = D) : ∀ (ps : List Nat), (∀ p ∈ ps, sib p < (level H leaves k).length) →
    diffNodes t.nodes (ps.map (2 ^ (e + 1) - 1 + ·)) = .ok (ps.map (levelNode H leaves k)) := by
  intro ps
  induction ps with
  | nil => intro _; rfl
  | cons p ps ih =>
    intro hb
    have hbp := hb p (by simp)
    have hbound := sib_in_bounds hp hk hbp
    rw [sib_sib] at hbound
    have hle := level_le H leaves D hp.size k (by omega)
    have hde : D - k = e + 1 := by omega
    rw [hde] at hle
    have hplt : p < 2 ^ (e + 1) := by
      have := sib_div p
      rw [Nat.pow_succ] at hle ⊢; omega
    have hh := heap_levels hp k (by omega) p (by rw [hde]; exact hplt)
    rw [hde, hashAt_lt hbound] at hh
    have hpos := Nat.two_pow_pos e
    have hps := Nat.pow_succ 2 e
    simp only [List.map_cons, diffNodes, getSibling_pos]
    rw [at?_ok hbound, Outcome.bind_ok, ih (fun q hq => hb q (by simp [hq])), Outcome.bind_ok, hh]
    have hside : (if 2 ^ (e + 1) - 1 + sib p + 1 = 2 ^ (e + 1) - 1 + p then Side.right else Side.left)
        = if p % 2 = 0 then Side.left else Side.right := by
      unfold sib
      by_cases h : p % 2 = 0
      · rw [if_pos h, if_neg (by omega), if_pos h]
      · rw [if_neg h, if_pos (by omega), if_neg h]
    rw [hside]; rfl

/-! ### The verifier -/

/-- Hashes at given positions of a level. -/
def hashesAt (H : HashFn) (leaves : List Bytes) (k : Nat) (S : List Nat) : List Bytes :=
  S.map (fun p => (level H leaves k)[p]?.getD [])

theorem pairOf_eq_iff (p q : Nat) : pairOf p = pairOf q ↔ p / 2 = q / 2 := by
  unfold pairOf
  split <;> split <;> simp only [Prod.mk.injEq] <;> constructor <;> intro h <;> omega

theorem pairOf_snd (p : Nat) : (pairOf p).2 / 2 = p / 2 := by
  unfold pairOf; split <;> simp only <;> omega

theorem headPre_levelNode (H : HashFn) (leaves : List Bytes) (k p : Nat) (hplt : p < (level H leaves k).length) :
    H (headPre ((level H leaves k)[p]?.getD []) (levelNode H leaves k (sib p)))
      = (level H leaves (k + 1))[p / 2]?.getD [] := by
  rw [level_succ_get]
  unfold headPre levelNode
  by_cases h : p % 2 = 0
  · have e1 : 2 * (p / 2) = p := by omega
    have e2 : sib p = p + 1 := by unfold sib; rw [if_pos h]
    rw [e1, e2, List.getElem?_eq_getElem hplt]
    simp only [Option.map_some, Option.getD_some]
    rw [if_neg (by omega)]
  · have e1 : 2 * (p / 2) = p - 1 := by omega
    have e2 : sib p = p - 1 := by unfold sib; rw [if_neg h]
    have e3 : p - 1 + 1 = p := by omega
    rw [e1, e2, e3, List.getElem?_eq_getElem hplt, List.getElem?_eq_getElem (by omega : p - 1 < _)]
    simp only [Option.map_some, Option.getD_some]
    rw [if_pos (by omega)]

theorem nodePre_level (H : HashFn) (leaves : List Bytes) (k p q : Nat) (hpq : p < q) (h : p / 2 = q / 2)
    (hq : q < (level H leaves k).length) :
    H (nodePre (some ((level H leaves k)[p]?.getD [])) (some ((level H leaves k)[q]?.getD [])))
      = (level H leaves (k + 1))[p / 2]?.getD [] := by
  have e1 : 2 * (p / 2) = p := by omega
  have e2 : q = p + 1 := by omega
  subst e2
  rw [level_succ_get, e1, List.getElem?_eq_getElem (by omega : p < _), List.getElem?_eq_getElem hq]
  rfl

theorem validateLevel_ok (H : HashFn) (leaves : List Bytes) (k : Nat) (m' : List LevelNode) : ∀ (S : List Nat), Sorted S →
    (∀ p ∈ S, p < (level H leaves k).length) →
    validateLevel H ((S.map pairOf).zip (hashesAt H leaves k S)) ((needs S).map (levelNode H leaves k) ++ m')
      = some (hashesAt H leaves (k + 1) (parents S), m') := by
  intro S
  fun_induction needs S with
  | case1 => intro _ _; unfold parents; simp [validateLevel, hashesAt]
  | case2 p =>
    intro _ hb
    unfold parents
    simp only [List.map_cons, List.map_nil, hashesAt, List.zip_cons_cons, List.zip_nil_right, List.cons_append,
      List.nil_append]
    unfold validateLevel
    simp only
    rw [headPre_levelNode H leaves k p (hb p (by simp))]
  | case3 p q r h ih =>
    intro hs hb
    have h1 := List.pairwise_cons.1 hs
    have h2 := List.pairwise_cons.1 h1.2
    have hih := ih h2.2 (fun x hx => hb x (by simp [hx]))
    unfold parents
    rw [if_pos h]
    simp only [List.map_cons, hashesAt, List.zip_cons_cons]
    unfold validateLevel
    rw [if_pos ((pairOf_eq_iff p q).2 h)]
    simp only [hashesAt] at hih
    rw [hih]
    simp only [Option.bind_eq_bind, Option.bind_some, Option.pure_def]
    rw [nodePre_level H leaves k p q (h1.1 q (by simp)) h (hb q (by simp))]
  | case4 p q r h ih =>
    intro hs hb
    have h1 := List.pairwise_cons.1 hs
    have hih := ih h1.2 (fun x hx => hb x (List.mem_cons_of_mem _ hx))
    unfold parents
    rw [if_neg h]
    simp only [List.map_cons, hashesAt, List.zip_cons_cons, List.cons_append] at hih ⊢
    unfold validateLevel
    rw [if_neg (fun hc => h ((pairOf_eq_iff p q).1 hc))]
    simp only
    rw [hih]
    simp only [Option.bind_eq_bind, Option.bind_some, Option.pure_def]
    rw [headPre_levelNode H leaves k p (hb p (by simp))]

theorem toSet_parents (S : List Nat) (hS : Sorted S) : toSet ((S.map pairOf).map (fun b => b.2 / 2)) = parents S := by
  refine sorted_ext _ _ (sorted_toSet _) (parents_sorted S hS) (fun x => ?_)
  rw [mem_toSet, mem_parents]
  simp only [List.map_map, List.mem_map, Function.comp, pairOf_snd]
  constructor
  · rintro ⟨p, hp, h⟩; exact ⟨p, hp, h.symm⟩
  · rintro ⟨p, hp, h⟩; exact ⟨p, hp, h.symm⟩

theorem parents_ne_nil {S : List Nat} (h : S ≠ []) : parents S ≠ [] := by
  cases S with
  | nil => exact absurd rfl h
  | cons a l =>
    intro hc
    have := (mem_parents (a :: l) (a / 2)).2 ⟨a, by simp, rfl⟩
    rw [hc] at this; cases this

/-- Entries at given positions of a level. -/
def indexedAt (H : HashFn) (leaves : List Bytes) (k : Nat) (S : List Nat) : List Indexed :=
  S.map (fun p => { index := p, hash := (level H leaves k)[p]?.getD [] })

theorem indexedAt_hash (H : HashFn) (leaves : List Bytes) (k : Nat) (S : List Nat) :
    (indexedAt H leaves k S).map Indexed.hash = hashesAt H leaves k S := by
  simp [indexedAt, hashesAt]

theorem zip_indexedAt (H : HashFn) (leaves : List Bytes) (k : Nat) (S : List Nat) :
    (S.zip (hashesAt H leaves k S)).map (fun p => ({ index := p.1, hash := p.2 } : Indexed)) = indexedAt H leaves k S := by
  induction S with
  | nil => rfl
  | cons a S ih => simp only [hashesAt, indexedAt, List.map_cons, List.zip_cons_cons] at *; rw [ih]

theorem parents_bound (H : HashFn) (leaves : List Bytes) (k : Nat) (S : List Nat)
    (hb : ∀ p ∈ S, p < (level H leaves k).length) : ∀ p ∈ parents S, p < (level H leaves (k + 1)).length := by
  intro p hp
  obtain ⟨q, hq, rfl⟩ := (mem_parents S p).1 hp
  have := hb q hq
  rw [level_length_succ]; omega

/-- Builder and verifier in lockstep from level `k` up to the root. -/
theorem multi_ok {H : HashFn} {leaves : List Bytes} {D : Nat} {t : Tree} (hp : IsHeap H leaves D t) {r : Bytes}
    (hr : level H leaves D = [r]) : ∀ (e k fuel : Nat) (S : List Nat), k + (e + 1) = D → e + 1 ≤ fuel → Sorted S →
    S ≠ [] → (∀ p ∈ S, p < (level H leaves k).length) →
    ∃ m, multiLoop t.nodes fuel (S.map (2 ^ (e + 1) - 1 + ·)) = .ok m ∧ m.length ≥ (needs S).length ∧
      validate H S (indexedAt H leaves k S) m = some [r] := by
  intro e
  induction e with
  | zero =>
    intro k fuel S hk hf hS hne hb
    have hnc : (S.map (2 ^ (0 + 1) - 1 + ·)).contains 0 = false := by
      simp only [List.contains_eq_mem, decide_eq_false_iff_not, List.mem_map]
      rintro ⟨p, _, h⟩; omega
    obtain ⟨b, h1, h2, h3⟩ := pruned_level 0 S hS
    obtain ⟨fuel, rfl⟩ : ∃ f, fuel = f + 1 := ⟨fuel - 1, by omega⟩
    have hpar0 : ∀ x ∈ parents S, x = 0 := by
      intro x hx
      have := parents_bound H leaves k S hb x hx
      have hk1 : k + 1 = D := by omega
      rw [hk1, hr] at this
      simpa using this
    have hpar : parents S = [0] := by
      refine sorted_ext _ _ (parents_sorted S hS) (by simp [Sorted]) (fun x => ?_)
      constructor
      · intro hx; simp [hpar0 x hx]
      · intro hx
        obtain ⟨y, hy⟩ := List.exists_mem_of_ne_nil _ (parents_ne_nil hne)
        have := hpar0 y hy
        simp at hx; subst hx; rw [← this]; exact hy
    have hd := diffNodes_level hp hk (needs S) (fun p hp' => hb _ ((mem_needs S hS p).1 hp').1)
    refine ⟨(needs S).map (levelNode H leaves k), ?_, by simp, ?_⟩
    · unfold multiLoop
      rw [if_neg (by rw [hnc]; simp), h1, Outcome.bind_ok, h2, hd, Outcome.bind_ok, h3, hpar]
      have : multiLoop t.nodes fuel (List.map (fun x => 2 ^ 0 - 1 + x) [0]) = .ok [] := by
        cases fuel <;> simp [multiLoop]
      rw [this]; simp
    · unfold validate
      rw [if_neg (by simp [indexedAt]), indexedAt_hash]
      have hv := validateLevel_ok H leaves k [] S hS hb
      rw [List.append_nil] at hv
      have hroot : hashesAt H leaves (k + 1) (parents S) = [r] := by
        have hk1 : k + 1 = D := by omega
        rw [hpar, hk1]; simp [hashesAt, hr]
      rw [hroot] at hv
      split
      · rename_i hc; rw [hv] at hc; cases hc
      · rename_i eN mN hc
        rw [hv] at hc
        cases hc
        rw [if_neg (by simp)]
  | succ e ih =>
    intro k fuel S hk hf hS hne hb
    have hnc : (S.map (2 ^ (e + 1 + 1) - 1 + ·)).contains 0 = false := by
      simp only [List.contains_eq_mem, decide_eq_false_iff_not, List.mem_map]
      rintro ⟨p, _, h⟩
      have := Nat.two_pow_pos (e + 1)
      rw [Nat.pow_succ] at h; omega
    obtain ⟨b, h1, h2, h3⟩ := pruned_level (e + 1) S hS
    obtain ⟨fuel, rfl⟩ : ∃ f, fuel = f + 1 := ⟨fuel - 1, by omega⟩
    obtain ⟨m, i1, i2, i3⟩ := ih (k + 1) fuel (parents S) (by omega) (by omega) (parents_sorted S hS)
      (parents_ne_nil hne) (parents_bound H leaves k S hb)
    have hd := diffNodes_level hp hk (needs S) (fun p hp' => hb _ ((mem_needs S hS p).1 hp').1)
    refine ⟨(needs S).map (levelNode H leaves k) ++ m, ?_, by simp, ?_⟩
    · unfold multiLoop
      rw [if_neg (by rw [hnc]; simp), h1, Outcome.bind_ok, h2, hd, Outcome.bind_ok, h3, i1]
      rfl
    · unfold validate
      rw [if_neg (by simp [indexedAt]), indexedAt_hash]
      have hv := validateLevel_ok H leaves k m S hS hb
      split
      · rename_i hc; rw [hv] at hc; cases hc
      · rename_i eN mN hc
        rw [hv] at hc
        cases hc
        have hcond : m ≠ [] ∨ (hashesAt H leaves (k + 1) (parents S)).length > 1 := by
          by_cases hl : (parents S).length > 1
          · right; simpa [hashesAt] using hl
          · left
            have hpne := parents_ne_nil hne
            match hps : parents S, hpne, hl with
            | [x], _, _ =>
              rw [hps] at i2
              intro hm
              subst hm
              simp [needs] at i2
            | x :: y :: l, _, hl => simp at hl
        have hts : toSet (List.map (fun b => b.2 / 2) (List.map pairOf S)) = parents S := toSet_parents S hS
        simp only
        rw [hts, if_pos ⟨hcond, parents_ne_nil hne⟩, zip_indexedAt]
        exact i3

/-! ### Sorting the entries -/

theorem insertByIndex_last (x : Indexed) : ∀ l : List Indexed, (∀ y ∈ l, y.index ≤ x.index) → insertByIndex x l = l ++ [x] := by
  intro l
  induction l with
  | nil => intro _; rfl
  | cons y l ih =>
    intro h
    unfold insertByIndex
    rw [if_neg (by have := h y (by simp); omega), ih (fun z hz => h z (by simp [hz]))]
    rfl

theorem sortByIndex_sorted (l : List Indexed) (h : (l.map Indexed.index).Pairwise (· ≤ ·)) : sortByIndex l = l := by
  have : ∀ (l acc : List Indexed), ((acc ++ l).map Indexed.index).Pairwise (· ≤ ·) →
      l.foldl (fun acc x => insertByIndex x acc) acc = acc ++ l := by
    intro l
    induction l with
    | nil => intro acc _; simp
    | cons x l ih =>
      intro acc h
      have hx : ∀ y ∈ acc, y.index ≤ x.index := by
        intro y hy
        rw [List.map_append, List.pairwise_append] at h
        exact h.2.2 _ (List.mem_map.2 ⟨y, hy, rfl⟩) _ (by simp)
      rw [List.foldl_cons, insertByIndex_last x acc hx, ih]
      · simp
      · simpa using h
  unfold sortByIndex
  simpa using this l [] (by simpa using h)

theorem indexedOf_ok {H : HashFn} {leaves : List Bytes} {D : Nat} {t : Tree} (hp : IsHeap H leaves D t) :
    ∀ S : List Nat, (∀ p ∈ S, p < leaves.length) →
      indexedOf t.nodes t.internalNodes S = .ok (indexedAt H leaves 0 S) := by
  intro S
  induction S with
  | nil => intro _; rfl
  | cons p S ih =>
    intro hb
    have hpl := hb p (by simp)
    have hlen : p + t.internalNodes < t.nodes.length := by rw [hp.internal, hp.len]; omega
    have hle := hp.leaf p
    rw [if_pos hpl, List.getElem?_eq_getElem hpl] at hle
    simp only [Option.map_some] at hle
    have hat : at? t.nodes (p + t.internalNodes) = .ok (Node.fromBytes H leaves[p]) := by
      unfold at?
      rw [hp.internal, Nat.add_comm, hle]
    simp only [indexedOf]
    rw [hat, Outcome.bind_ok, ih (fun q hq => hb q (by simp [hq])), Outcome.bind_ok]
    simp only [Node.fromBytes, Node.hash?, indexedAt, List.map_cons, level]
    simp [List.getElem?_eq_getElem hpl]

theorem proofByIndices_ok {H : HashFn} {leaves : List Bytes} {D : Nat} {t : Tree} (hp : IsHeap H leaves D t)
    (hD : 1 ≤ D) (hne : leaves ≠ []) (idx : List Nat) (hidx : idx ≠ []) (hb : ∀ i ∈ idx, i < leaves.length) :
    ∃ b, t.proofByIndices idx = .ok b ∧ b.valid H t.rootHash = true ∧
      b.indices = indexedAt H leaves 0 (toSet idx) := by
  obtain ⟨r, hroot, _, _, _, hr⟩ := heap_root hp hD hne
  have hS := sorted_toSet idx
  have hbS : ∀ p ∈ toSet idx, p < leaves.length := fun p hp' => hb p ((mem_toSet idx p).1 hp')
  have hSne : toSet idx ≠ [] := by
    obtain ⟨y, hy⟩ := List.exists_mem_of_ne_nil _ hidx
    intro hc
    have := (mem_toSet idx y).2 hy
    rw [hc] at this; cases this
  have hcond : ¬ (toSet idx = [] ∨ ((toSet idx).any fun i =>
      ((t.nodes[t.internalNodes + i]?).bind Node.leafData?).isNone) = true) := by
    rintro (h | h)
    · exact hSne h
    · obtain ⟨i, hi, h⟩ := List.any_eq_true.1 h
      have hil := hbS i hi
      rw [hp.internal, hp.leaf, if_pos hil, List.getElem?_eq_getElem hil] at h
      simp [Node.fromBytes, Node.leafData?] at h
  obtain ⟨e, he⟩ : ∃ e, D = e + 1 := ⟨D - 1, by omega⟩
  have hfuel : e + 1 ≤ t.nodes.length := by
    rw [hp.len, ← he]
    have : D < 2 ^ D := Nat.lt_two_pow_self
    have := List.length_pos_iff.2 hne
    omega
  obtain ⟨m, h1, _, h3⟩ := multi_ok hp hr e 0 t.nodes.length (toSet idx) (by omega) hfuel hS hSne
    (by simpa [level] using hbS)
  have hset : toSet ((toSet idx).map (· + t.internalNodes)) = (toSet idx).map (2 ^ (e + 1) - 1 + ·) := by
    have : (toSet idx).map (· + t.internalNodes) = (toSet idx).map (2 ^ (e + 1) - 1 + ·) := by
      rw [hp.internal, he]; simp only [Nat.add_comm]
    rw [this, toSet_sorted (sorted_map_add _ hS)]
  refine ⟨{ indices := indexedAt H leaves 0 (toSet idx), proofs := m }, ?_, ?_, rfl⟩
  · unfold Tree.proofByIndices
    simp only
    rw [if_neg hcond]
    unfold buildMultiproof
    rw [hset, h1, Outcome.bind_ok, indexedOf_ok hp _ hbS]
    rfl
  · unfold Batch.valid
    have hidxs : (indexedAt H leaves 0 (toSet idx)).map Indexed.index = toSet idx := by
      simp only [indexedAt, List.map_map]
      exact List.map_id _
    have hsorted : sortByIndex (indexedAt H leaves 0 (toSet idx)) = indexedAt H leaves 0 (toSet idx) := by
      refine sortByIndex_sorted _ ?_
      rw [hidxs]
      exact hS.imp (fun h => Nat.le_of_lt h)
    simp only [hsorted, hidxs, h3, hroot]
    simp

end Verif.Merkle
