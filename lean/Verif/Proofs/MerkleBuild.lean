import Verif.Spec.Merkle

set_option linter.unusedSimpArgs false
set_option linter.unusedVariables false

namespace Verif.Merkle
open Spec

/-! ## Powers of two -/

def IsPow2 (n : Nat) : Prop := ∃ d, n = 2 ^ d

theorem not_pow2_odd (k : Nat) : ¬ IsPow2 (2 * k + 3) := by
  rintro ⟨d, h⟩
  cases d with
  | zero => simp at h
  | succ d => rw [Nat.pow_succ] at h; omega

theorem pow2_half {n : Nat} (h : IsPow2 (2 * n)) (hn : 1 ≤ n) : IsPow2 n := by
  obtain ⟨d, h⟩ := h
  cases d with
  | zero => simp at h; omega
  | succ d => exact ⟨d, by rw [Nat.pow_succ] at h; omega⟩

theorem npow2Loop_spec (n : Nat) : ∀ fuel p d, p = 2 ^ d → n ≤ 2 ^ fuel * p → (d = 0 ∨ p < 2 * n) →
    ∃ e, npow2Loop n fuel p = 2 ^ e ∧ n ≤ 2 ^ e ∧ (e = 0 ∨ 2 ^ e < 2 * n) := by
  intro fuel
  induction fuel with
  | zero => intro p d hp hn hd; exact ⟨d, hp, by simpa [hp] using hn, by rw [← hp]; exact hd⟩
  | succ f ih =>
    intro p d hp hn hd
    unfold npow2Loop
    split
    · exact ⟨d, hp, by omega, by rw [← hp]; exact hd⟩
    · exact ih (2 * p) (d + 1) (by rw [hp, Nat.pow_succ]; omega)
        (by rw [Nat.pow_succ] at hn; rw [← Nat.mul_assoc]; exact hn) (Or.inr (by omega))

theorem nextPow2_spec (n : Nat) : ∃ e, nextPow2 n = 2 ^ e ∧ n ≤ 2 ^ e ∧ (e = 0 ∨ 2 ^ e < 2 * n) := by
  refine npow2Loop_spec n n 1 0 rfl ?_ (Or.inl rfl)
  have : n < 2 ^ n := Nat.lt_two_pow_self
  omega

/-! ## The array built by `MerkleTree::new` -/

theorem at?_ok {nodes : List Node} {i : Nat} (h : i < nodes.length) : at? nodes i = .ok nodes[i] := by
  unfold at?
  rw [List.getElem?_eq_getElem h]

theorem combine_ok (H : HashFn) (l r : Node) (h : l.hash? = none → r.hash? = none) :
    ∃ n, combine H l r = .ok n ∧ n.hash? = (l.hash?).map (fun a => H (nodePre (some a) r.hash?)) := by
  unfold combine
  cases hl : l.hash? with
  | none => rw [h hl]; exact ⟨.empty, rfl, rfl⟩
  | some a =>
    cases hr : r.hash? with
    | none => exact ⟨_, rfl, rfl⟩
    | some b => exact ⟨_, rfl, rfl⟩

/-- Hash at an array position (`none` for an empty node or beyond the end). -/
def hashAt (A : List Node) (i : Nat) : Option Bytes := (A[i]?).bind Node.hash?

theorem hashAt_lt {A : List Node} {i : Nat} (h : i < A.length) : hashAt A i = A[i].hash? := by
  simp [hashAt, List.getElem?_eq_getElem h]

theorem hashAt_set_ne {A : List Node} {i j : Nat} {n : Node} (h : i ≠ j) : hashAt (A.set i n) j = hashAt A j := by
  simp [hashAt, List.getElem?_set, h]

theorem hashAt_set_eq {A : List Node} {i : Nat} {n : Node} (h : i < A.length) : hashAt (A.set i n) i = n.hash? := by
  simp [hashAt, List.getElem?_set, h]

/-- Loop invariant of `build_nodes` when all parents `≥ j` are done. -/
structure BuildInv (H : HashFn) (I j : Nat) (A : List Node) : Prop where
  heap : ∀ i, j ≤ i → 2 * i + 2 < A.length →
    hashAt A i = (hashAt A (2 * i + 1)).map (fun a => H (nodePre (some a) (hashAt A (2 * i + 2))))
  bare : ∀ i, i < I → A.length ≤ 2 * i + 2 → hashAt A i = none
  mono : ∀ i, j ≤ i → ¬ IsPow2 (i + 2) → hashAt A i = none → hashAt A (i + 1) = none

theorem buildNodes_ok (H : HashFn) (I : Nat) (hI : IsPow2 (I + 1)) : ∀ (j : Nat) (A : List Node),
    j ≤ I → 2 * j + 1 ≤ A.length → BuildInv H I j A →
    ∃ B, buildNodes H j A = .ok B ∧ B.length = A.length ∧ BuildInv H I 0 B ∧ ∀ i, I ≤ i → B[i]? = A[i]? := by
  intro j
  induction j with
  | zero => intro A _ _ inv; exact ⟨A, rfl, rfl, inv, fun _ _ => rfl⟩
  | succ j ih =>
    intro A hjI hlen inv
    have hl : 2 * j + 1 < A.length := by omega
    have hr : 2 * j + 2 < A.length := by omega
    have hj : j < A.length := by omega
    have hlr : hashAt A (2 * j + 1) = none → hashAt A (2 * j + 2) = none :=
      inv.mono (2 * j + 1) (by omega) (by have := not_pow2_odd j; simpa [Nat.add_assoc] using this)
    rw [hashAt_lt hl, hashAt_lt hr] at hlr
    obtain ⟨n, hn, hnh⟩ := combine_ok H A[2 * j + 1] A[2 * j + 2] hlr
    have hlen' : (A.set j n).length = A.length := by simp
    have inv' : BuildInv H I j (A.set j n) := by
      refine ⟨?_, ?_, ?_⟩
      · intro i hi hi2
        rw [hlen'] at hi2
        rw [hashAt_set_ne (by omega : j ≠ 2 * i + 1), hashAt_set_ne (by omega : j ≠ 2 * i + 2)]
        by_cases hij : i = j
        · subst hij
          rw [hashAt_set_eq hj, hnh, hashAt_lt hl, hashAt_lt hr]
        · rw [hashAt_set_ne (by omega)]
          exact inv.heap i (by omega) hi2
      · intro i hi hi2
        rw [hlen'] at hi2
        rw [hashAt_set_ne (by omega)]
        exact inv.bare i hi hi2
      · intro i hi hp hnone
        by_cases hij : i = j
        · subst hij
          rw [hashAt_set_eq hj, hnh] at hnone
          rw [hashAt_set_ne (by omega)]
          have h1 : hashAt A (2 * i + 1) = none := by
            rw [hashAt_lt hl]; simpa using hnone
          have h2 : hashAt A (2 * i + 2) = none := by rw [hashAt_lt hr]; rw [hashAt_lt hl] at h1; exact hlr h1
          have h3 : hashAt A (2 * i + 3) = none := by
            refine inv.mono (2 * i + 2) (by omega) ?_ h2
            intro hp2
            exact hp (pow2_half (by simpa [Nat.mul_add, Nat.add_assoc] using hp2) (by omega))
          by_cases hb : 2 * (i + 1) + 2 < A.length
          · rw [inv.heap (i + 1) (by omega) hb]
            have : 2 * (i + 1) + 1 = 2 * i + 3 := by omega
            rw [this, h3]; rfl
          · have hne : i + 1 ≠ I := by
              intro e
              exact hp (by rw [← e] at hI; simpa [Nat.add_assoc] using hI)
            exact inv.bare (i + 1) (by omega) (by omega)
        · rw [hashAt_set_ne (by omega)] at hnone ⊢
          exact inv.mono i (by omega) hp hnone
    obtain ⟨B, h1, h2, h3, h4⟩ := ih (A.set j n) (by omega) (by omega) inv'
    refine ⟨B, ?_, by omega, h3, ?_⟩
    · show (at? A (getLeft j) >>= fun l => at? A (getRight j) >>= fun r => combine H l r >>= fun n =>
        buildNodes H j (A.set j n)) = _
      rw [getLeft, getRight, at?_ok hl, Outcome.bind_ok, at?_ok hr, Outcome.bind_ok, hn, Outcome.bind_ok, h1]
    · intro i hi
      rw [h4 i hi, List.getElem?_set_ne (by omega)]

/-- What is known about the array of the tree over a list of byte strings. -/
structure IsHeap (H : HashFn) (leaves : List Bytes) (D : Nat) (t : Tree) : Prop where
  internal : t.internalNodes = 2 ^ D - 1
  leaf : ∀ i, t.nodes[2 ^ D - 1 + i]? =
    if i < leaves.length then (leaves[i]?).map (Node.fromBytes H)
    else if i = leaves.length ∧ leaves.length % 2 = 1 then some Node.empty else none
  heap : ∀ i, 2 * i + 2 < t.nodes.length →
    hashAt t.nodes i = (hashAt t.nodes (2 * i + 1)).map (fun a => H (nodePre (some a) (hashAt t.nodes (2 * i + 2))))
  bare : ∀ i, i < 2 ^ D - 1 → t.nodes.length ≤ 2 * i + 2 → hashAt t.nodes i = none
  len : t.nodes.length = 2 ^ D - 1 + (leaves.length + leaves.length % 2)
  size : leaves.length ≤ 2 ^ D
  tight : D ≤ 1 ∨ 2 ^ D < 2 * leaves.length
  index : t.elementsHashIndex = hashIndex (leaves.map (Node.fromBytes H))

theorem hashIndex_padEven (l : List Node) : hashIndex (padEven l) = hashIndex l := by
  unfold padEven
  split
  · have : List.filterMap Node.hash? [Node.empty] = [] := rfl
    simp only [hashIndex, List.filterMap_append, this, List.append_nil]
  · rfl

theorem padEven_length (l : List Node) : (padEven l).length = l.length + l.length % 2 := by
  unfold padEven
  split <;> simp <;> omega

theorem padEven_get (l : List Node) (i : Nat) : (padEven l)[i]? =
    if i < l.length then l[i]? else if i = l.length ∧ l.length % 2 = 1 then some Node.empty else none := by
  unfold padEven
  by_cases h : l.length % 2 = 1
  · rw [if_pos h]
    by_cases hi : i < l.length
    · rw [if_pos hi, List.getElem?_append_left hi]
    · rw [if_neg hi, List.getElem?_append_right (by omega)]
      by_cases he : i = l.length
      · simp [he, h]
      · rw [if_neg (by omega), List.getElem?_eq_none (by simp; omega)]
  · rw [if_neg h]
    by_cases hi : i < l.length
    · rw [if_pos hi]
    · rw [if_neg hi, if_neg (by omega), List.getElem?_eq_none (by omega)]

theorem tree_new (H : HashFn) (leaves : List Bytes) (hne : leaves ≠ []) :
    ∃ t D, Tree.new H (leaves.map (Node.fromBytes H)) = .ok t ∧ 1 ≤ D ∧ IsHeap H leaves D t := by
  have hn : 1 ≤ leaves.length := List.length_pos_iff.2 hne
  let ns := leaves.map (Node.fromBytes H)
  have hns : ns.length = leaves.length := by simp [ns]
  obtain ⟨D, hD1, hD2, hD3⟩ := nextPow2_spec (padEven ns).length
  have hL : (padEven ns).length = leaves.length + leaves.length % 2 := by rw [padEven_length, hns]
  have hDpos : 1 ≤ D := by
    cases D with
    | zero => simp at hD2; omega
    | succ d => omega
  have hpow : 2 ≤ 2 ^ D := by
    calc 2 = 2 ^ 1 := rfl
      _ ≤ 2 ^ D := Nat.pow_le_pow_right (by omega) hDpos
  have heven : 2 ^ D % 2 = 0 := by
    obtain ⟨d, rfl⟩ : ∃ d, D = d + 1 := ⟨D - 1, by omega⟩
    rw [Nat.pow_succ]; omega
  let arr := List.replicate (nextPow2 (padEven ns).length - 1) Node.empty ++ padEven ns
  have harr : arr.length = 2 ^ D - 1 + (leaves.length + leaves.length % 2) := by
    simp only [arr, List.length_append, List.length_replicate]; rw [hD1, hL]
  have hget : ∀ i, 2 ^ D - 1 ≤ i → arr[i]? = (padEven ns)[i - (2 ^ D - 1)]? := by
    intro i hi
    simp only [arr]
    rw [List.getElem?_append_right (by simp [hD1]; omega)]
    simp [hD1]
  have hget' : ∀ i, i < 2 ^ D - 1 → hashAt arr i = none := by
    intro i hi
    have : arr[i]? = some Node.empty := by
      simp only [arr]
      rw [List.getElem?_append_left (by simp [hD1]; omega), List.getElem?_replicate, if_pos (by rw [hD1]; omega)]
    simp [hashAt, this, Node.hash?]
  have hleafhash : ∀ i, 2 ^ D - 1 ≤ i → hashAt arr i = none → leaves.length ≤ i - (2 ^ D - 1) := by
    intro i hi h0
    rcases Nat.lt_or_ge (i - (2 ^ D - 1)) leaves.length with hlt | hge
    · exfalso
      have hlt2 : i - (2 ^ D - 1) < ns.length := by rw [hns]; exact hlt
      unfold hashAt at h0
      rw [hget i hi, padEven_get, if_pos hlt2] at h0
      simp only [ns, List.getElem?_map, List.getElem?_eq_getElem hlt, Option.map_some, Option.bind_some,
        Node.fromBytes, Node.hash?] at h0
      cases h0
    · exact hge
  have hbeyond : ∀ i, 2 ^ D - 1 + leaves.length ≤ i → hashAt arr i = none := by
    intro i hi
    unfold hashAt
    rw [hget i (by omega), padEven_get, if_neg (by omega)]
    split <;> rfl
  have inv : BuildInv H (2 ^ D - 1) (arr.length / 2) arr := by
    refine ⟨?_, ?_, ?_⟩
    · intro i hi hi2; omega
    · intro i hi _; exact hget' i hi
    · intro i hi hp h0
      rcases Nat.lt_or_ge i (2 ^ D - 1) with hlt | hge
      · have hne : i + 1 ≠ 2 ^ D - 1 := by
          intro e; exact hp ⟨D, by omega⟩
        exact hget' (i + 1) (by omega)
      · have := hleafhash i hge h0
        exact hbeyond (i + 1) (by omega)
  obtain ⟨B, h1, h2, h3, h4⟩ := buildNodes_ok H (2 ^ D - 1) ⟨D, by omega⟩ (arr.length / 2) arr (by omega) (by omega) inv
  refine ⟨{ nodes := B, elementsHashIndex := hashIndex (padEven ns), internalNodes := B.length - (padEven ns).length },
    D, ?_, hDpos, ?_⟩
  · show (buildNodes H (arr.length / 2) arr >>= _) = _
    rw [h1]; rfl
  · refine ⟨?_, ?_, ?_, ?_, ?_, ?_, ?_, ?_⟩
    · simp only [h2, harr, hL]; omega
    · intro i
      show B[2 ^ D - 1 + i]? = _
      rw [h4 _ (by omega), hget _ (by omega), padEven_get]
      have e : 2 ^ D - 1 + i - (2 ^ D - 1) = i := by omega
      rw [e, hns]; simp only [ns, List.getElem?_map]
    · intro i hi; exact h3.heap i (by omega) hi
    · intro i hi hi2; exact h3.bare i hi hi2
    · show B.length = _; rw [h2, harr]
    · omega
    · rcases hD3 with h | h
      · omega
      · rw [hL] at h
        by_cases hD : D ≤ 1
        · exact Or.inl hD
        · refine Or.inr ?_
          have h4 : 2 ^ D % 4 = 0 := by
            obtain ⟨d, rfl⟩ : ∃ d, D = d + 2 := ⟨D - 2, by omega⟩
            rw [Nat.pow_add]; omega
          omega
    · exact hashIndex_padEven ns

/-! ## The array holds the levels of the specification -/

theorem pairPres_get : ∀ (l : List Bytes) (q : Nat), (pairPres l)[q]? =
    (l[2 * q]?).map (fun a => nodePre (some a) (l[2 * q + 1]?)) := by
  intro l
  fun_induction pairPres l with
  | case1 a b r ih =>
    intro q
    cases q with
    | zero => rfl
    | succ q =>
      have e1 : 2 * (q + 1) = 2 * q + 2 := by omega
      simp only [e1, List.getElem?_cons_succ]
      rw [ih]
  | case2 a =>
    intro q
    cases q with
    | zero => rfl
    | succ q =>
      have e1 : 2 * (q + 1) = 2 * q + 1 + 1 := by omega
      simp [e1]
  | case3 => intro q; simp

theorem pairPres_length : ∀ (l : List Bytes), (pairPres l).length = (l.length + 1) / 2 := by
  intro l
  fun_induction pairPres l with
  | case1 a b r ih => simp only [List.length_cons, ih]; omega
  | case2 a => simp
  | case3 => simp

theorem level_succ_get (H : HashFn) (leaves : List Bytes) (k q : Nat) : (level H leaves (k + 1))[q]? =
    ((level H leaves k)[2 * q]?).map (fun a => H (nodePre (some a) ((level H leaves k)[2 * q + 1]?))) := by
  simp only [level, List.getElem?_map, pairPres_get, Option.map_map]
  rfl

theorem level_length_succ (H : HashFn) (leaves : List Bytes) (k : Nat) :
    (level H leaves (k + 1)).length = ((level H leaves k).length + 1) / 2 := by
  simp only [level, List.length_map, pairPres_length]

theorem level_hash_len (H : HashFn) (leaves : List Bytes) (k : Nat) : ∀ h ∈ level H leaves k, h.length = 32 := by
  intro h hh
  cases k with
  | zero =>
    simp only [level, List.mem_map] at hh
    obtain ⟨d, _, rfl⟩ := hh; exact H.len _
  | succ k =>
    simp only [level, List.mem_map] at hh
    obtain ⟨d, _, rfl⟩ := hh; exact H.len _

theorem level_le (H : HashFn) (leaves : List Bytes) (D : Nat) (h : leaves.length ≤ 2 ^ D) :
    ∀ k, k ≤ D → (level H leaves k).length ≤ 2 ^ (D - k) := by
  intro k
  induction k with
  | zero => intro _; simpa [level] using h
  | succ k ih =>
    intro hk
    have := ih (by omega)
    rw [level_length_succ]
    obtain ⟨e, he⟩ : ∃ e, D - k = e + 1 := ⟨D - k - 1, by omega⟩
    have he2 : D - (k + 1) = e := by omega
    rw [he, Nat.pow_succ] at this
    rw [he2]; omega

theorem level_ge (H : HashFn) (leaves : List Bytes) (D : Nat) (h : 2 ^ D < 2 * leaves.length) :
    ∀ k, k < D → 2 ^ (D - k) < 2 * (level H leaves k).length := by
  intro k
  induction k with
  | zero => intro _; simpa [level] using h
  | succ k ih =>
    intro hk
    have := ih (by omega)
    rw [level_length_succ]
    obtain ⟨e, he⟩ : ∃ e, D - k = e + 2 := ⟨D - k - 2, by omega⟩
    have he2 : D - (k + 1) = e + 1 := by omega
    rw [he, Nat.pow_add] at this
    rw [he2, Nat.pow_succ]; omega

theorem level_pos (H : HashFn) (leaves : List Bytes) (hne : leaves ≠ []) : ∀ k, 1 ≤ (level H leaves k).length := by
  intro k
  induction k with
  | zero => have := List.length_pos_iff.2 hne; simp [level]; omega
  | succ k ih => rw [level_length_succ]; omega

theorem heap_levels {H : HashFn} {leaves : List Bytes} {D : Nat} {t : Tree} (hp : IsHeap H leaves D t) :
    ∀ k, k ≤ D → ∀ q, q < 2 ^ (D - k) → hashAt t.nodes (2 ^ (D - k) - 1 + q) = (level H leaves k)[q]? := by
  intro k
  induction k with
  | zero =>
    intro _ q hq
    simp only [Nat.sub_zero] at hq ⊢
    unfold hashAt
    rw [hp.leaf]
    by_cases h : q < leaves.length
    · rw [if_pos h]
      simp [level, List.getElem?_eq_getElem h, Node.fromBytes, Node.hash?]
    · rw [if_neg h, List.getElem?_eq_none (by simp [level]; omega)]
      split <;> rfl
  | succ k ih =>
    intro hk q hq
    obtain ⟨e, he⟩ : ∃ e, D - k = e + 1 := ⟨D - k - 1, by omega⟩
    have he2 : D - (k + 1) = e := by omega
    rw [he2] at hq ⊢
    have ih' := ih (by omega)
    rw [he, Nat.pow_succ] at ih'
    have c1 : 2 * (2 ^ e - 1 + q) + 1 = 2 ^ e * 2 - 1 + 2 * q := by
      have := Nat.two_pow_pos e; omega
    have c2 : 2 * (2 ^ e - 1 + q) + 2 = 2 ^ e * 2 - 1 + (2 * q + 1) := by
      have := Nat.two_pow_pos e; omega
    have hlt1 : 2 * q < 2 ^ e * 2 := by omega
    have hlt2 : 2 * q + 1 < 2 ^ e * 2 := by omega
    have h1 := ih' (2 * q) hlt1
    have h2 := ih' (2 * q + 1) hlt2
    by_cases hin : 2 * (2 ^ e - 1 + q) + 2 < t.nodes.length
    · rw [hp.heap _ hin, level_succ_get, c1, c2, h1, h2]
    · rw [level_succ_get]
      have hb : hashAt t.nodes (2 ^ e - 1 + q) = none := by
        refine hp.bare _ ?_ (by omega)
        have : 2 ^ (e + 1) ≤ 2 ^ D := Nat.pow_le_pow_right (by omega) (by omega)
        rw [Nat.pow_succ] at this
        have := Nat.two_pow_pos e
        omega
      rw [hb]
      have : hashAt t.nodes (2 ^ e * 2 - 1 + 2 * q) = none := by
        -- array length is odd, so the left child is beyond the end as well
        have hodd : t.nodes.length % 2 = 1 := by
          rw [hp.len]
          have : 2 ^ D % 2 = 0 := by
            obtain ⟨d, rfl⟩ : ∃ d, D = d + 1 := ⟨D - 1, by omega⟩
            rw [Nat.pow_succ]; omega
          have := Nat.two_pow_pos D
          omega
        unfold hashAt
        rw [List.getElem?_eq_none (by omega)]; rfl
      rw [← h1, this]; rfl

theorem heap_root {H : HashFn} {leaves : List Bytes} {D : Nat} {t : Tree} (hp : IsHeap H leaves D t) (hD : 1 ≤ D)
    (hne : leaves ≠ []) : ∃ r, t.rootHash = r ∧ hashAt t.nodes 0 = some r ∧ IsRoot H leaves D r := by
  have h0 := heap_levels hp D (Nat.le_refl _) 0 (by simp)
  simp only [Nat.sub_self, Nat.pow_zero, Nat.zero_add] at h0
  have hlen : (level H leaves D).length = 1 := by
    have h1 := level_pos H leaves hne D
    have h2 := level_le H leaves D hp.size D (Nat.le_refl _)
    simp at h2; omega
  obtain ⟨r, hr⟩ := List.length_eq_one_iff.1 hlen
  rw [hr] at h0
  simp only [List.getElem?_cons_zero] at h0
  refine ⟨r, ?_, h0, hD, ?_, hr⟩
  · unfold hashAt at h0
    unfold Tree.rootHash
    rw [h0]; rfl
  · rcases hp.tight with h | h
    · left; omega
    · by_cases hD1 : D = 1
      · exact Or.inl hD1
      · right
        have := level_ge H leaves D h (D - 1) (by omega)
        have e : D - (D - 1) = 1 := by omega
        rw [e] at this
        omega

end Verif.Merkle
